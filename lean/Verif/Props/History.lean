import Verif.Common.History
import Verif.Csr.Wide

/-!
# Property C46: sequences of calls

`s v` is the mathematical matrix in variable `v`.  `Spec.after` applies the operations one after the
other.  The theorems say that after any sequence of calls the library's matrices represent
`Spec.after`.
-/

namespace Bml.Spec

open History

variable {R : Type} [CommRing R] [DecidableEq R]

/-- The matrix a call should compute from the matrices `s`.  `eff t` is the threshold test the format
really applies in arithmetic functions: the sparse formats apply the given one, the dense format
none.  The diagonal of a product is kept whatever the threshold (C12, C13); `bml_multiply` then adds
`β C` and applies the threshold to all elements, except that `A A` with the factors 1 and 0 goes
straight into `C` (C14). -/
def value (N : Nat) (eff : (R → Bool) → R → Bool) (s : Nat → Mat R) : Cmd R → Mat R
  | .zero _ => fun _ _ => 0
  | .identity _ => fun i j => if i = j then 1 else 0
  | .set i j x v => fun i' j' => if i' = i ∧ j' = j then x else s v i' j'
  | .setRow t i row v => fun i' j => if i' = i then keep (eff t) (row.get j) else s v i' j
  | .setDiagonal t d v => fun i j => if i = j then keep (eff t) (d.get i) else s v i j
  | .copyNew v _ => s v
  | .copy v _ => s v
  | .scaleInplace c v => fun i j => c * s v i j
  | .scale c v _ => fun i j => c * s v i j
  | .add t α β w v => fun i j => keep (eff t) (α * s v i j + β * s w i j)
  | .addIdentity t β v => fun i j => keep (eff t) (s v i j + β * one i j)
  | .scaleAddIdentity t α β v => fun i j => keep (eff t) (α * s v i j + β * one i j)
  | .threshold t v => fun i j => keep t (s v i j)
  | .multiply t α β v w u => fun i j =>
      if v = w ∧ α = 1 ∧ β = 0 then keepOff (eff t) (mul N (s v) (s w)) i j
      else keep (eff t) (β * s u i j + α * keepOff (eff t) (mul N (s v) (s w)) i j)
  | .square t v _ => keepOff (eff t) (mul N (s v) (s v))
  | .transpose v => fun i j => s v j i
  | .transposeNew v _ => fun i j => s v j i

/-- The operations one after the other. -/
def after (N : Nat) (eff : (R → Bool) → R → Bool) : List (Cmd R × Env R) → (Nat → Mat R) → Nat → Mat R
  | [], s => s
  | (c, _) :: cs, s => after N eff cs (upd s c.target (value N eff s c))

end Bml.Spec

namespace Bml.Props

open History

variable {R : Type} [CommRing R] [DecidableEq R]

/-- Every call is legal and every environment plays by the rules. -/
def Played (N : Nat) (cs : List (Cmd R × Env R)) : Prop := ∀ c ∈ cs, c.1.Legal N ∧ c.2.Valid N

/-- `Fit` holds before each of the calls. -/
def AllFit {τ : Type} (N : Nat) (eff : (R → Bool) → R → Bool)
    (value : Env R → (Nat → τ) → Cmd R → Res τ) (Fit : (Nat → τ) → (Nat → Spec.Mat R) → Cmd R → Prop) :
    List (Cmd R × Env R) → (Nat → τ) → (Nat → Spec.Mat R) → Prop
  | [], _, _ => True
  | (c, ω) :: cs, S, s => Fit S s c ∧ ∀ A, value ω S c = .ok A →
      AllFit N eff value Fit cs (upd S c.target A) (upd s c.target (Spec.value N eff s c))

/-- If each call is right, all sequences are. -/
theorem history {τ : Type} {N : Nat} {eff : (R → Bool) → R → Bool}
    {value : Env R → (Nat → τ) → Cmd R → Res τ}
    {Fit : (Nat → τ) → (Nat → Spec.Mat R) → Cmd R → Prop} {Rep : τ → Spec.Mat R → Prop}
    (hstep : ∀ c ω S s, (∀ v, Rep (S v) (s v)) → c.Legal N → ω.Valid N → Fit S s c →
      ∃ A, value ω S c = .ok A ∧ Rep A (Spec.value N eff s c)) :
    ∀ (cs : List (Cmd R × Env R)) (S : Nat → τ) (s : Nat → Spec.Mat R), (∀ v, Rep (S v) (s v)) →
      Played N cs → AllFit N eff value Fit cs S s →
      ∃ S', run value cs S = .ok S' ∧ ∀ v, Rep (S' v) (Spec.after N eff cs s v) := by
  intro cs
  induction cs with
  | nil => intro S s h _ _; exact ⟨S, rfl, h⟩
  | cons c cs ih =>
    intro S s h hp hf
    obtain ⟨c, ω⟩ := c
    obtain ⟨h1, h2⟩ := hp _ List.mem_cons_self
    obtain ⟨A, e, hA⟩ := hstep c ω S s h h1 h2 hf.1
    obtain ⟨S', e', h'⟩ := ih (upd S c.target A) (upd s c.target (Spec.value N eff s c))
      (fun v => by
        by_cases hv : v = c.target
        · subst hv; rw [upd_same, upd_same]; exact hA
        · rw [upd_ne _ _ hv, upd_ne _ _ hv]; exact h v)
      (fun c hc => hp c (List.mem_cons_of_mem _ hc)) (hf.2 A e)
    refine ⟨S', ?_, h'⟩
    show (value ω S c >>= fun A => run value cs (upd S c.target A)) = _
    rw [e, Res.bind_ok, e']

/-! ## Dense -/

theorem dense_step {N : Nat} (hN : 0 < N) (c : Cmd R) (ω : Env R) (S : Nat → Dense R)
    (s : Nat → Spec.Mat R) (h : ∀ v, (S v).Represents N (s v)) (hl : c.Legal N) (hv : ω.Valid N) :
    ∃ A, denseValue N ω S c = .ok A ∧ A.Represents N (Spec.value N (fun _ _ => true) s c) := by
  have hk : ∀ x : R, Spec.keep (fun _ => true) x = x := fun x => by simp [Spec.keep]
  have hko : ∀ a : Spec.Mat R, Spec.keepOff (fun _ => true) a = a := fun a => by
    funext i j; simp [Spec.keepOff, Spec.keep]
  cases c with
  | zero v => exact ⟨_, rfl, C32_dense_zero N⟩
  | identity v => exact C32_dense_identity hv.rows
  | set i j x v =>
    obtain ⟨A', e, h'⟩ :=
      Dense.exists_of_wp (Dense.wp_setElement (Dense.represents_iff.1 (h v)) hl.1 hl.2 x)
    exact ⟨A', e, h'⟩
  | setRow t i row v =>
    obtain ⟨A', e, h', -⟩ := C04_dense_set_get_row_partial (h v) hl.1 hl.2 (fun _ => 0)
    exact ⟨A', e, h'.congr fun i j _ _ => by simp only [Spec.value, hk]⟩
  | setDiagonal t d v =>
    obtain ⟨A', e, h', -⟩ := C05_dense_set_get_diagonal_partial (h v) hl (fun _ => 0)
    exact ⟨A', e, h'.congr fun i j _ _ => by simp only [Spec.value, hk]⟩
  | copyNew v w => exact C07_dense_copy_new (h v) _
  | copy v w => exact (C07_dense_copy (h v) (h w)).1 rfl
  | scaleInplace c v =>
    obtain ⟨A', e, h'⟩ := C10_dense_scale_inplace (h v) c (Nat.zero_le N) (le_refl N)
    exact ⟨A', e, h'.congr (Spec.onRows_all N _ _)⟩
  | scale c v w =>
    by_cases hvw : v = w
    · obtain ⟨A', e, h'⟩ := C10_dense_scale_inplace (h v) c (Nat.zero_le N) (le_refl N)
      exact ⟨A', (if_pos hvw).trans e, h'.congr (Spec.onRows_all N _ _)⟩
    · obtain ⟨A', e, h'⟩ := C10_dense_scale (h v) (h w) c (Nat.zero_le N) (le_refl N)
      exact ⟨A', (if_neg hvw).trans e, h'.congr (Spec.onRows_all N _ _)⟩
  | add t α β w v =>
    obtain ⟨A', e, h'⟩ := C08_dense_add_value (h v) (h w) α β (Nat.zero_le N) (le_refl N)
    refine ⟨A', e, (h'.congr (Spec.onRows_all N _ _)).congr fun i j _ _ => ?_⟩
    simp only [Spec.value, hk]
  | addIdentity t β v =>
    obtain ⟨A', e, h'⟩ := C09_dense_add_identity_partial (h v) β hv.rows (le_refl N)
    refine ⟨A', e, (h'.congr (Spec.onRows_all N _ _)).congr fun i j _ _ => ?_⟩
    simp only [Spec.value, hk]
  | scaleAddIdentity t α β v =>
    obtain ⟨A', e, h'⟩ := C09_dense_scale_add_identity_partial (h v) α β (Nat.zero_le N)
      (le_refl N) hv.rows
    refine ⟨A', e, (h'.congr (Spec.onRows_all N _ _)).congr fun i j _ _ => ?_⟩
    simp only [Spec.value, hk]
  | threshold t v =>
    obtain ⟨A', e, h'⟩ := C11_dense_threshold (h v) t hv.elems (le_refl N)
    exact ⟨A', e, h'.congr (Spec.onRows_all N _ _)⟩
  | multiply t α β v w u =>
    obtain ⟨A', e, h'⟩ := C14_dense_multiply_partial hN (h v) (h w) (h u) α β
    refine ⟨A', e, h'.congr fun i j _ _ => ?_⟩
    simp only [Spec.value, hk, hko]
    split
    · next hc => rw [hc.2.1, hc.2.2]; ring
    · ring
  | square t v w =>
    obtain ⟨r, e, h', -⟩ := C13_dense_x2_partial hN (h v) (h w) hv.rows hv.rows'
    refine ⟨r.1, ?_, h'.congr fun i j _ _ => ?_⟩
    · show (Dense.multiplyX2 _ _ _ _ >>= _) = _
      rw [e]; rfl
    · simp only [Spec.value, hko]
  | transpose v =>
    obtain ⟨B, e, h', -⟩ := C18_dense_transpose (h v) hv.upper hv.upper
    exact ⟨B, e, h'⟩
  | transposeNew v w => exact C17_dense_transpose_new (h v) hv.rows _

/-- **C46**, dense: every sequence of calls, of any length, on matrices of every positive size.  No
conditions; the thresholds of the arithmetic functions are ignored by this format. -/
theorem C46_dense {N : Nat} (hN : 0 < N) (cs : List (Cmd R × Env R)) {S : Nat → Dense R}
    {s : Nat → Spec.Mat R} (hS : ∀ v, (S v).Represents N (s v)) (hp : Played N cs) :
    ∃ S', run (denseValue N) cs S = .ok S' ∧
      ∀ v, (S' v).Represents N (Spec.after N (fun _ _ => true) cs s v) := by
  have hfit : ∀ (cs : List (Cmd R × Env R)) S s,
      AllFit N (fun _ _ => true) (denseValue N) (fun _ _ _ => True) cs S s := by
    intro cs
    induction cs with
    | nil => intro S s; trivial
    | cons c cs ih => intro S s; exact ⟨trivial, fun A _ => ih _ _⟩
  exact history (Rep := fun A a => Dense.Represents A N a)
    (fun c ω S s h hl hv _ => dense_step hN c ω S s h hl hv) cs S s hS hp (hfit cs S s)

/-! ## CSR -/

/-- The conditions on the rows of the CSR matrices `S` before a call: `bml_add` and `bml_multiply` need
row space for the sum or rows without common columns, and at most 174762 entries in a row of the
target (C08, C14); `bml_copy` and `bml_scale` need the rows of the target to be long enough (C07). -/
def CsrFit (N : Nat) (S : Nat → Csr R) (_ : Nat → Spec.Mat R) : Cmd R → Prop
  | .copy v w => ∀ i, i < N → ((S v).data.get i).nnz ≤ ((S w).data.get i).alloc
  | .scale _ v w => v ≠ w → ∀ i, i < N → ((S v).data.get i).nnz ≤ ((S w).data.get i).alloc
  | .add _ _ _ w v => ∀ i, i < N → ((S v).data.get i).nnz ≤ 174762 ∧ SumFits (S v) (S w) N i
  | .multiply _ _ _ v w u => ∀ i, i < N →
      ((S u).data.get i).nnz ≤ 174762 ∧ Csr.ProdFits (S v) (S w) (S u) N i
  | _ => True

theorem csr_step {N M : Nat} (c : Cmd R) (ω : Env R) (S : Nat → Csr R) (s : Nat → Spec.Mat R)
    (h : ∀ v, (S v).Represents N (s v)) (hl : c.Legal N) (hv : ω.Valid N) (hfit : CsrFit N S s c) :
    ∃ A, csrValue N M ω S c = .ok A ∧ A.Represents N (Spec.value N (fun t => t) s c) := by
  cases c with
  | zero v => exact ⟨_, rfl, C32_csr_zero N M⟩
  | identity v =>
    obtain ⟨A, e, -, h'⟩ := C32_csr_identity (R := R) (M := M) hv.rows
    exact ⟨A, e, h'⟩
  | set i j x v =>
    obtain ⟨A', e, -, h'⟩ :=
      Csr.exists_of_wpM (Csr.wp_setElement (Csr.represents_iff.1 (h v)) hl.1 hl.2 x)
    exact ⟨A', e, h'⟩
  | setRow t i row v =>
    obtain ⟨A', e, h', -⟩ := C04_csr_set_get_row (h v) hl.1 hl.2 t ω.ints
    exact ⟨A', e, h'⟩
  | setDiagonal t d v =>
    obtain ⟨A', e, h', -⟩ := C05_csr_set_get_diagonal (h v) hl t
    exact ⟨A', e, h'⟩
  | copyNew v w =>
    obtain ⟨B, e, -, h'⟩ := C07_csr_copy_new (h v) hv.rows ω.csrRows ω.vals2 ω.ints2
    exact ⟨B, e, h'⟩
  | copy v w => exact (C07_csr_copy_partial (h v) (h w) hv.rows).2 hfit
  | scaleInplace c v =>
    obtain ⟨B, e, -, h'⟩ := C10_csr_scale_inplace (h v) c hv.rows
    exact ⟨B, e, h'⟩
  | scale c v w =>
    by_cases hvw : v = w
    · obtain ⟨B, e, -, h'⟩ := C10_csr_scale_inplace (h v) c hv.rows'
      exact ⟨B, (if_pos hvw).trans e, h'⟩
    · obtain ⟨B, e, h'⟩ := C10_csr_scale_partial (h v) (h w) c hv.rows hv.rows' (hfit hvw)
      exact ⟨B, (if_neg hvw).trans e, h'⟩
  | add t α β w v =>
    obtain ⟨B, e, -, h'⟩ := C08_csr_add_partial (h v) (h w) α β t hv.rows hv.rows' ω.table
      (fun i hi => (hfit i hi).1) (fun i hi => (hfit i hi).2)
    exact ⟨B, e, h'⟩
  | addIdentity t β v =>
    obtain ⟨B, e, -, h'⟩ := C09_csr_add_identity (h v) β t hv.rows hv.rows'
    exact ⟨B, e, h'⟩
  | scaleAddIdentity t α β v =>
    obtain ⟨B, e, -, h'⟩ :=
      C09_csr_scale_add_identity_partial (h v) α β t hv.rows hv.rows' hv.rows''
    exact ⟨B, e, h'⟩
  | threshold t v =>
    obtain ⟨B, e, -, h', -⟩ := C11_csr_threshold (h v) t hv.rows
    exact ⟨B, e, h'⟩
  | multiply t α β v w u =>
    by_cases hvw : v = w
    · subst hvw
      by_cases hc : α = 1 ∧ β = 0
      · obtain ⟨B, e, -, h'⟩ := C14_csr_square (h v) (h u) t hv.rows hv.rows' hv.rows'' ω.vals2
          ω.ints2 ω.table
        obtain ⟨rfl, rfl⟩ := hc
        refine ⟨B, (if_pos rfl).trans e, h'.congr fun i j _ _ => ?_⟩
        exact (if_pos ⟨rfl, rfl, rfl⟩).symm
      · obtain ⟨B, e, -, h'⟩ := C14_csr_multiply_self_partial (h v) (h u) hc t hv.rows hv.rows'
          hv.rows'' ω.vals2 ω.ints2 ω.table (fun i hi => (hfit i hi).1) (fun i hi => (hfit i hi).2)
        refine ⟨B, (if_pos rfl).trans e, h'.congr fun i j _ _ => ?_⟩
        exact (if_neg fun h => hc h.2).symm
    · obtain ⟨B, e, -, h'⟩ := C14_csr_multiply_partial (h v) (h w) (h u) α β t hv.rows hv.rows'
        hv.rows'' ω.vals2 ω.ints2 ω.table (fun i hi => (hfit i hi).1) (fun i hi => (hfit i hi).2)
      refine ⟨B, (if_neg hvw).trans e, h'.congr fun i j _ _ => ?_⟩
      exact (if_neg fun h => hvw h.1).symm
  | square t v w =>
    obtain ⟨B, e, -, h'⟩ := C13_csr_x2 (h v) (h w) t hv.rows
    refine ⟨B, ?_, h'⟩
    show (Csr.multX2 _ _ _ _ >>= _) = _
    rw [e]; rfl
  | transpose v =>
    obtain ⟨B, e, -, h', -⟩ := C18_csr_transpose (h v)
    exact ⟨B, e, h'⟩
  | transposeNew v w =>
    obtain ⟨B, e, -, h'⟩ := C17_csr_transpose_new (h v) (hv.csrSlots (S v)) ω.vals2 ω.ints2
    exact ⟨B, e, h'⟩

/-- **C46 (partial)**, CSR: every sequence of calls whose rows fit (`CsrFit`). -/
theorem C46_csr_partial {N M : Nat} (cs : List (Cmd R × Env R)) {S : Nat → Csr R}
    {s : Nat → Spec.Mat R} (hS : ∀ v, (S v).Represents N (s v)) (hp : Played N cs)
    (hf : AllFit N (fun t => t) (csrValue N M) (CsrFit N) cs S s) :
    ∃ S', run (csrValue N M) cs S = .ok S' ∧
      ∀ v, (S' v).Represents N (Spec.after N (fun t => t) cs s v) :=
  history (Rep := fun A a => Csr.Represents A N a) csr_step cs S s hS hp hf

/-- The calls whose CSR implementation needs no row space in advance. -/
def GrowsByItself : Cmd R → Prop
  | .copy _ _ | .scale _ _ _ | .add _ _ _ _ _ | .multiply _ _ _ _ _ _ => False
  | _ => True

/-- **C46**, CSR: every sequence of the calls whose implementation enlarges the rows itself, without
conditions on the rows. -/
theorem C46_csr_growing {N M : Nat} (cs : List (Cmd R × Env R)) {S : Nat → Csr R}
    {s : Nat → Spec.Mat R} (hS : ∀ v, (S v).Represents N (s v)) (hp : Played N cs)
    (hg : ∀ c ∈ cs, GrowsByItself c.1) :
    ∃ S', run (csrValue N M) cs S = .ok S' ∧
      ∀ v, (S' v).Represents N (Spec.after N (fun t => t) cs s v) := by
  refine C46_csr_partial cs hS hp ?_
  clear hS hp
  induction cs generalizing S s with
  | nil => trivial
  | cons c cs ih =>
    obtain ⟨c, ω⟩ := c
    refine ⟨?_, fun A _ => ih fun c hc => hg c (List.mem_cons_of_mem _ hc)⟩
    have := hg _ List.mem_cons_self
    cases c <;> first | trivial | exact this.elim

/-- The rows of `A` have room for `N` entries, and so have those of the matrices made from it. -/
structure WideRows (N M : Nat) (A : Csr R) : Prop where
  width : A.M = M
  room : ∀ i, i < N → N ≤ (A.data.get i).alloc

omit [CommRing R] in
/-- No call takes row space away. -/
theorem csr_room [Zero R] [One R] [Add R] [Mul R] [Neg R] [Sub R] {N M : Nat} (hM : N ≤ M ∨ N ≤ 10) (c : Cmd R) (ω : Env R) (S : Nat → Csr R)
    (h : ∀ v, Csr.Room N M N (S v)) (hv : ω.Valid N) :
    (csrValue N M ω S c).wlp (Csr.Room N M N) := by
  have hr : N ≤ CsrRow.rowSpace M := by
    unfold CsrRow.rowSpace CsrRow.initRowSpace
    split <;> omega
  cases c with
  | zero v => exact Res.wlp_ok.2 (Csr.Room.newZero hr)
  | identity v => exact Csr.Room.identity hr
  | set i j x v => exact (h v).setElement i j x
  | setRow t i row v => exact (h v).setRow i row t ω.ints
  | setDiagonal t d v => exact (h v).setDiagonal d t
  | copyNew v w => exact (h v).copyNew hv.rows _ _ _
  | copy v w => exact (h w).copyInto
  | scaleInplace c v => exact (h v).scaleInplace c
  | scale c v w =>
    simp only [csrValue]
    split
    · exact (h v).scaleInplace c
    · exact (h w).scale c
  | add t α β w v => exact (h v).add α β t _
  | addIdentity t β v => exact (h v).addIdentity β t
  | scaleAddIdentity t α β v => exact (h v).scaleAddIdentity α β t
  | threshold t v => exact (h v).threshold t
  | multiply t α β v w u =>
    simp only [csrValue]
    split
    · exact (h u).multiplySelf α β t _ _ _
    · exact (h u).multiply α β t _ _ _
  | square t v w =>
    exact Res.wlp_bind.2 (Res.wlp_mono ((h w).multX2 t) fun r hr => Res.wlp_ok.2 hr)
  | transpose v => exact (h v).transposeInPlace
  | transposeNew v w => exact Csr.Room.transposeNew (h v).dim (h v).width hr _ _ _

/-- With room for `N` entries in every row, all calls fit. -/
theorem csrFit_of_wide {N : Nat} (hN : N ≤ 174762) {S : Nat → Csr R} {s : Nat → Spec.Mat R}
    (h : ∀ v, (S v).Represents N (s v)) (hw : ∀ v i, i < N → N ≤ ((S v).data.get i).alloc)
    (c : Cmd R) : CsrFit N S s c := by
  have hcard : ∀ (p : Nat → Prop) [DecidablePred p], ((Finset.range N).filter p).card ≤ N :=
    fun p _ => (Finset.card_filter_le _ _).trans (by rw [Finset.card_range])
  have hn : ∀ v i, i < N → ((S v).data.get i).nnz ≤ N := fun v i hi => by
    have := ((Csr.represents_iff.1 (h v)).good hi).length_le
    rwa [show ((S v).row i).length = ((S v).data.get i).nnz from CsrRow.list_length _] at this
  cases c with
  | copy v w => exact fun i hi => (hn v i hi).trans (hw w i hi)
  | scale c v w => exact fun _ i hi => (hn v i hi).trans (hw w i hi)
  | add t α β w v => exact fun i hi => ⟨(hn v i hi).trans hN, .inr ((hcard _).trans (hw v i hi))⟩
  | multiply t α β v w u =>
    exact fun i hi => ⟨(hn u i hi).trans hN, .inr ((hcard _).trans (hw u i hi))⟩
  | _ => trivial

theorem csr_wide_step {N M : Nat} (hM : N ≤ M ∨ N ≤ 10) (hN : N ≤ 174762) (c : Cmd R) (ω : Env R)
    (S : Nat → Csr R) (s : Nat → Spec.Mat R)
    (h : ∀ v, WideRows N M (S v) ∧ (S v).Represents N (s v)) (hl : c.Legal N) (hv : ω.Valid N) :
    ∃ A, csrValue N M ω S c = .ok A ∧
      WideRows N M A ∧ A.Represents N (Spec.value N (fun t => t) s c) := by
  obtain ⟨A, e, hA⟩ := csr_step (M := M) c ω S s (fun v => (h v).2) hl hv
    (csrFit_of_wide hN (fun v => (h v).2) (fun v => (h v).1.room) c)
  have hr := csr_room hM c ω S (fun v => ⟨(Csr.represents_iff.1 (h v).2).dim,
    (Csr.represents_iff.1 (h v).2).size, (h v).1.width, (h v).1.room⟩) hv A e
  exact ⟨A, e, ⟨hr.width, hr.room⟩, hA⟩

/-- **C46**, CSR with rows as wide as the matrix (or matrices of at most ten rows): every sequence of
all the calls, of any length, without further conditions.  174762 is the largest number of entries in
a row for which the hash table of `bml_add` works. -/
theorem C46_csr_wide {N M : Nat} (hM : N ≤ M ∨ N ≤ 10) (hN : N ≤ 174762)
    (cs : List (Cmd R × Env R)) {S : Nat → Csr R} {s : Nat → Spec.Mat R}
    (hS : ∀ v, WideRows N M (S v) ∧ (S v).Represents N (s v)) (hp : Played N cs) :
    ∃ S', run (csrValue N M) cs S = .ok S' ∧
      ∀ v, WideRows N M (S' v) ∧ (S' v).Represents N (Spec.after N (fun t => t) cs s v) := by
  have hfit : ∀ (cs : List (Cmd R × Env R)) (S : Nat → Csr R) s,
      AllFit N (fun t => t) (csrValue N M) (fun _ _ _ => True) cs S s := by
    intro cs
    induction cs with
    | nil => intro S s; trivial
    | cons c cs ih => intro S s; exact ⟨trivial, fun A _ => ih _ _⟩
  exact history (Rep := fun A a => WideRows N M A ∧ Csr.Represents A N a)
    (fun c ω S s h hl hv _ => csr_wide_step hM hN c ω S s h hl hv) cs S s hS hp (hfit cs S s)

/-! ## ELLPACK -/

/-- The conditions on the rows of the ELLPACK matrices `S`, of width `M`, before a call: the result of
the call fits into rows of `M` entries, and `bml_set_element` does not meet a stored element in a row
of one or two entries (C01). -/
def EllFit (N M : Nat) (S : Nat → Ell R) (s : Nat → Spec.Mat R) : Cmd R → Prop
  | .set i j _ v => (¬ (S v).Stored i j ∧ (S v).nnz.get i < M) ∨
      (2 < (S v).nnz.get i ∧ ((S v).Stored i j ∨ (S v).nnz.get i < M))
  | .setRow t _ row _ => ((Finset.range N).filter (fun j => t (row.get j) = true)).card ≤ M
  | .setDiagonal t d v => ∀ i, i < N →
      t (d.get i) = false ∨ (S v).nnz.get i < M ∨ (S v).Stored i i
  | .add t α β w v => ∀ i, i < N → Spec.rowCount t N (fun i j => α * s v i j + β * s w i j) i ≤ M
  | .addIdentity _ β v => ∀ i, i < N → β = 0 ∨ (S v).nnz.get i < M ∨ (S v).Stored i i
  | .scaleAddIdentity _ _ β v => ∀ i, i < N → β = 0 ∨ (S v).nnz.get i < M ∨ (S v).Stored i i
  | .multiply t α β v w u => ∀ i, i < N →
      (if v = w then Ell.x2Fill (S v) t (s v) N i else Ell.productFill (S v) (S w) N i) ≤ M ∧
      Spec.rowCount t N
        (fun i j => β * s u i j + α * Spec.keepOff t (Spec.mul N (s v) (s w)) i j) i ≤ M
  | .square t v _ => ∀ i, i < N → Ell.x2Fill (S v) t (s v) N i ≤ M
  | .transpose v => ∀ j, j < N →
      ((Finset.range N).filter (fun c => (S v).Stored j c ∨ (S v).Stored c j)).card ≤ M
  | .transposeNew v _ => ∀ c, c < N →
      ((Finset.range N).filter (fun i => (S v).Stored i c)).card ≤ M
  | _ => True

theorem ell_step {N M : Nat} (hM : 0 < M) (c : Cmd R) (ω : Env R) (S : Nat → Ell R)
    (s : Nat → Spec.Mat R) (h' : ∀ v, (S v).M = M ∧ (S v).Represents N (s v)) (hl : c.Legal N)
    (hv : ω.Valid N) (hfit : EllFit N M S s c) :
    ∃ A, ellValue N M ω S c = .ok A ∧ A.M = M ∧ A.Represents N (Spec.value N (fun t => t) s c) := by
  have h := fun v => (h' v).2
  have m := fun v => (h' v).1
  cases c with
  | zero v => exact C32_zero hM
  | identity v => exact C32_identity hM hv.rows
  | set i j x v =>
    obtain ⟨A, e, h1, h2⟩ := C01_set_element_partial (h v) hl.1 hl.2 x (by rw [m v]; exact hfit)
    exact ⟨A, e, h1.trans (m v), h2⟩
  | setRow t i row v =>
    obtain ⟨A, e, h1, h2⟩ := C04_set_row (h v) hl.1 hl.2 t (by rw [m v]; exact hfit)
    exact ⟨A, e, h1.trans (m v), h2⟩
  | setDiagonal t d v =>
    obtain ⟨A, e, h1, h2⟩ := C05_set_diagonal (h v) hl t (by rw [m v]; exact hfit)
    exact ⟨A, e, h1.trans (m v), h2⟩
  | copyNew v w =>
    obtain ⟨A, e, h1, h2⟩ := C07_copy_new (h v) hv.rows ω.vals ω.ints
    exact ⟨A, e, h1.trans (m v), h2⟩
  | copy v w =>
    obtain ⟨A, e, h1, h2⟩ := C07_copy_partial (h v) (h w).wf (h w).dim ((m w).trans (m v).symm)
      (by rw [m v]; omega) hv.rows
    exact ⟨A, e, h1.trans (m v), h2⟩
  | scaleInplace c v =>
    obtain ⟨A, e, h1, h2⟩ := C10_scale_inplace (h v) c (Nat.zero_le N) (le_refl N)
    exact ⟨A, e, h1.trans (m v), h2.congr (Spec.onRows_all N _ _)⟩
  | scale c v w =>
    by_cases hvw : v = w
    · obtain ⟨A, e, h1, h2⟩ := C10_scale_inplace (h v) c (Nat.zero_le N) (le_refl N)
      exact ⟨A, (if_pos hvw).trans e, h1.trans (m v), h2.congr (Spec.onRows_all N _ _)⟩
    · obtain ⟨A, e, h1, h2⟩ := C10_scale (h v) (h w).wf (h w).dim ((m w).trans (m v).symm)
        (by rw [m v]; omega) c (Nat.zero_le N) (le_refl N) hv.rows
      exact ⟨A, (if_neg hvw).trans e, h1.trans (m v), h2.congr (Spec.onRows_all N _ _)⟩
  | add t α β w v =>
    obtain ⟨A, e, h1, h2⟩ := C08_add_all (h v) (h w) α β t hv.rows (by rw [m v]; exact hfit)
    exact ⟨A, e, h1.trans (m v), h2⟩
  | addIdentity t β v =>
    obtain ⟨A, e, h1, h2⟩ := C09_add_identity_partial (h v) β t hv.rows (by rw [m v]; exact hfit)
    exact ⟨A, e, h1.trans (m v), h2⟩
  | scaleAddIdentity t α β v =>
    obtain ⟨A, e, h1, h2⟩ := C09_scale_add_identity_partial (h v) α β t hv.rows
      (by rw [m v]; exact hfit)
    exact ⟨A, e, h1.trans (m v), h2⟩
  | threshold t v =>
    obtain ⟨A, e, h1, h2⟩ := C11_threshold (h v) t hv.rows (le_refl N)
    exact ⟨A, e, h1.trans (m v), h2.congr (Spec.onRows_all N _ _)⟩
  | multiply t α β v w u =>
    by_cases hvw : v = w
    · subst hvw
      have hfill : ∀ i, i < N → Ell.x2Fill (S v) t (s v) N i ≤ (S u).M := fun i hi => by
        have := (hfit i hi).1
        rwa [if_pos rfl, ← m u] at this
      by_cases hc : α = 1 ∧ β = 0
      · obtain ⟨A, e, h1, h2⟩ := C14_square (h v) (h u) t ω.rows' hv.rows ω.vals ω.ints hfill
        obtain ⟨rfl, rfl⟩ := hc
        refine ⟨A, (if_pos rfl).trans e, h1.trans (m u), h2.congr fun i j _ _ => ?_⟩
        exact (if_pos ⟨rfl, rfl, rfl⟩).symm
      · obtain ⟨A, e, h1, h2⟩ := C14_square_general (h v) (h u) α β hc t hv.rows hv.rows' ω.vals
          ω.ints hfill (fun i hi => by rw [m u]; exact (hfit i hi).2)
        refine ⟨A, (if_pos rfl).trans e, h1.trans (m u), h2.congr fun i j _ _ => ?_⟩
        exact (if_neg fun h => hc h.2).symm
    · obtain ⟨A, e, h1, h2⟩ := C14_multiply (h v) (h w) (h u) α β t hv.rows hv.rows' ω.vals ω.ints
        (fun i hi => by
          have := (hfit i hi).1
          rwa [if_neg hvw, ← m u] at this)
        (fun i hi => by rw [m u]; exact (hfit i hi).2)
      refine ⟨A, (if_neg hvw).trans e, h1.trans (m u), h2.congr fun i j _ _ => ?_⟩
      exact (if_neg fun h => hvw h.1).symm
  | square t v w =>
    obtain ⟨A, e, h1, h2⟩ := C13_x2_all (h v) (h w) t hv.rows (by rw [m w]; exact hfit)
    refine ⟨A, ?_, h1.trans (m w), h2⟩
    show (Ell.multX2 _ _ _ _ >>= _) = _
    rw [e]; rfl
  | transpose v =>
    obtain ⟨A, e, h1, h2⟩ := C18_transpose_partial (h v) (by rw [m v]; exact hfit)
    exact ⟨A, e, h1.trans (m v), h2⟩
  | transposeNew v w =>
    obtain ⟨A, e, h1, h2⟩ := C17_transpose_new (h v) (hv.ellSlots (S v)) ω.vals ω.ints
      (by rw [m v]; exact hfit)
    exact ⟨A, e, h1.trans (m v), h2⟩

/-- **C46 (partial)**, ELLPACK: every sequence of calls whose rows fit (`EllFit`). -/
theorem C46_ellpack_partial {N M : Nat} (hM : 0 < M) (cs : List (Cmd R × Env R)) {S : Nat → Ell R}
    {s : Nat → Spec.Mat R} (hS : ∀ v, (S v).M = M ∧ (S v).Represents N (s v)) (hp : Played N cs)
    (hf : AllFit N (fun t => t) (ellValue N M) (EllFit N M) cs S s) :
    ∃ S', run (ellValue N M) cs S = .ok S' ∧
      ∀ v, (S' v).M = M ∧ (S' v).Represents N (Spec.after N (fun t => t) cs s v) :=
  history (Rep := fun A a => A.M = M ∧ Ell.Represents A N a) (ell_step hM) cs S s hS hp hf

/-- A row with `N` or more slots has room for every column that is not stored. -/
theorem ell_room {N M : Nat} (hNM : N ≤ M) {A : Ell R} {a : Spec.Mat R} (hA : A.Represents N a)
    {i j : Nat} (hi : i < N) (hj : j < N) (hs : ¬ A.Stored i j) : A.nnz.get i < M := by
  have hR := Ell.represents_iff.1 hA
  have hlen : (A.row i).length = A.nnz.get i := by simp [Ell.row, Ell.rowPre]
  have hsub : ((A.row i).map Prod.fst).toFinset ⊆ (Finset.range N).erase j := by
    intro c hc
    rw [List.mem_toFinset] at hc
    obtain ⟨p, hp, rfl⟩ := List.mem_map.1 hc
    rw [Finset.mem_erase, Finset.mem_range]
    refine ⟨fun e => hs (Ell.stored_iff.2 (e ▸ hc)), (hR.good i hi).2 p hp⟩
  have := Finset.card_le_card hsub
  rw [List.toFinset_card_of_nodup (hR.good i hi).1, List.length_map, hlen,
    Finset.card_erase_of_mem (Finset.mem_range.2 hj), Finset.card_range] at this
  omega

/-- Not an assignment to a single element. -/
def NotSet : Cmd R → Prop
  | .set _ _ _ _ => False
  | _ => True

/-- In rows as wide as the matrix everything fits. -/
theorem ellFit_of_wide {N M : Nat} (hNM : N ≤ M) {S : Nat → Ell R} {s : Nat → Spec.Mat R}
    (hS : ∀ v, (S v).M = M ∧ (S v).Represents N (s v)) {c : Cmd R} (hc : NotSet c) :
    EllFit N M S s c := by
  have hcard : ∀ (p : Nat → Prop) [DecidablePred p], ((Finset.range N).filter p).card ≤ M :=
    fun p _ => ((Finset.card_filter_le _ _).trans (by rw [Finset.card_range])).trans hNM
  have hdiag : ∀ v i, i < N → (S v).nnz.get i < M ∨ (S v).Stored i i := fun v i hi => by
    by_cases hs : (S v).Stored i i
    · exact .inr hs
    · exact .inl (ell_room hNM (hS v).2 hi hi hs)
  cases c with
  | set i j x v => exact hc.elim
  | setRow t i row v => exact hcard _
  | setDiagonal t d v => exact fun i hi => .inr (hdiag v i hi)
  | add t α β w v => exact fun i hi => hcard _
  | addIdentity t β v => exact fun i hi => .inr (hdiag v i hi)
  | scaleAddIdentity t α β v => exact fun i hi => .inr (hdiag v i hi)
  | multiply t α β v w u =>
    exact fun i hi => ⟨by split <;> exact hcard _, hcard _⟩
  | square t v w => exact fun i hi => hcard _
  | transpose v => exact fun i hi => hcard _
  | transposeNew v w => exact fun i hi => hcard _
  | _ => trivial

/-- **C46 (partial)**, ELLPACK with rows as wide as the matrix: every sequence of calls, of any
length, except `bml_set_element`, without further conditions. -/
theorem C46_ellpack_wide_partial {N M : Nat} (hM : 0 < M) (hNM : N ≤ M) (cs : List (Cmd R × Env R))
    {S : Nat → Ell R} {s : Nat → Spec.Mat R} (hS : ∀ v, (S v).M = M ∧ (S v).Represents N (s v))
    (hp : Played N cs) (hn : ∀ c ∈ cs, NotSet c.1) :
    ∃ S', run (ellValue N M) cs S = .ok S' ∧
      ∀ v, (S' v).M = M ∧ (S' v).Represents N (Spec.after N (fun t => t) cs s v) := by
  refine C46_ellpack_partial hM cs hS hp ?_
  induction cs generalizing S s with
  | nil => trivial
  | cons c cs ih =>
    obtain ⟨c, ω⟩ := c
    have hfit : EllFit N M S s c := ellFit_of_wide hNM hS (hn _ List.mem_cons_self)
    obtain ⟨h1, h2⟩ := hp _ List.mem_cons_self
    refine ⟨hfit, fun A e => ?_⟩
    obtain ⟨A', e', hA⟩ := ell_step hM c ω S s hS h1 h2 hfit
    rw [e] at e'
    cases e'
    exact ih (fun v => by
      by_cases hv : v = c.target
      · subst hv; rw [upd_same, upd_same]; exact hA
      · rw [upd_ne _ _ hv, upd_ne _ _ hv]; exact hS v)
      (fun c hc => hp c (List.mem_cons_of_mem _ hc)) (fun c hc => hn c (List.mem_cons_of_mem _ hc))

/-! ## Examples -/

/-- Sequential schedules, memory full of sevens. -/
def exEnv (N : Nat) : Env Int where
  rows := seqSched 0 N
  rows' := (seqSched 0 N).reverse
  rows'' := seqSched 0 N
  elems := seqSched (0 * N) (N * N)
  upper := seqSched 0 (N - 1)
  ellSlots := fun A => A.slots.reverse
  csrSlots := fun A => A.slots
  vals := fun _ => 7
  ints := fun _ => 7
  vals2 := fun _ _ => 7
  ints2 := fun _ _ => 7
  csrRows := fun _ => CsrRow.ofList 1 []
  table := fun _ => ⟨none, 7, 7⟩

/-- The same environment for every call. -/
def withEnv (ω : Env Int) (cs : List (Cmd Int)) : List (Cmd Int × Env Int) := cs.map fun c => (c, ω)

theorem exEnv_valid (N : Nat) : (exEnv N).Valid N :=
  ⟨isSched_seq 0 N, by
    show ((seqSched 0 N).reverse.map Prod.snd).Perm _
    rw [List.map_reverse]
    exact (List.reverse_perm _).trans (isSched_seq 0 N), isSched_seq 0 N, isSched_seq _ _,
    isSched_seq _ _, fun A => List.reverse_perm _, fun A => List.Perm.refl _⟩

/-- A program: three matrices, a row, a product, a sum, a transposition. -/
def exProg : List (Cmd Int × Env Int) :=
  [.identity 0, .setRow exBig 1 ⟨3, fun j => 2 * j + 3⟩ 0, .transposeNew 0 1,
    .multiply exBig 2 1 0 1 2, .add exBig 1 (-3) 0 2, .transpose 2, .scaleInplace 5 2,
    .addIdentity exBig 4 2].map fun c => (c, exEnv 3)

theorem exProg_played : Played 3 exProg := by
  intro c hc
  obtain ⟨d, hd, rfl⟩ := List.mem_map.1 hc
  refine ⟨?_, exEnv_valid 3⟩
  fin_cases hd <;> simp [Cmd.Legal]

/-- What the program computes, by hand from the specification. -/
example : Spec.after 3 (fun t => t) exProg (fun _ => Spec.zero) 2 0 1 = -15 := by decide +kernel

example : ∃ S', run (ellValue 3 3) exProg (fun _ => Ell.zeroMatrix 3 3) = .ok S' ∧
    (S' 2).getElement 0 1 = .ok (Spec.after 3 (fun t => t) exProg (fun _ => Spec.zero) 2 0 1) := by
  obtain ⟨S', e, h⟩ := C46_ellpack_wide_partial (by omega) (le_refl 3) exProg
    (S := fun _ => Ell.zeroMatrix 3 3) (s := fun _ => Spec.zero)
    (fun v => ⟨rfl, Ell.represents_iff.2 (Ell.zero_rep 3 3)⟩) exProg_played (by
      intro c hc
      obtain ⟨d, hd, rfl⟩ := List.mem_map.1 hc
      fin_cases hd <;> trivial)
  exact ⟨S', e, (h 2).2.get 0 1 (by omega) (by omega)⟩

example : ∃ S', run (denseValue 3) exProg (fun _ => Dense.zeroMatrix 3) = .ok S' ∧
    (S' 2).getElement 0 1 = .ok (-15) := by
  obtain ⟨S', e, h⟩ := C46_dense (by omega) exProg (S := fun _ => Dense.zeroMatrix 3)
    (s := fun _ => Spec.zero) (fun v => C32_dense_zero 3) exProg_played
  exact ⟨S', e, ((h 2).get 0 1 (by omega) (by omega)).trans (by decide +kernel)⟩

example : ∃ S', run (csrValue 3 2) exProg (fun _ => Csr.newZero 3 2) = .ok S' ∧
    (S' 2).getElement 0 1 = .ok (-15) := by
  obtain ⟨S', e, h⟩ := C46_csr_wide (M := 2) (.inr (by omega)) (by omega) exProg
    (S := fun _ => Csr.newZero 3 2) (s := fun _ => Spec.zero)
    (fun v => ⟨⟨rfl, fun _ _ => show 3 ≤ 10 by omega⟩, C32_csr_zero 3 2⟩) exProg_played
  exact ⟨S', e, ((h 2).2.get 0 1 (by omega) (by omega)).trans (by decide +kernel)⟩

/-- Rows of two entries are enough for this program, and here `bml_set_element` is used. -/
def exProg2 : List (Cmd Int × Env Int) :=
  [.set 0 1 5 0, .set 0 2 6 0, .set 1 0 2 1, .add exBig 2 3 1 0, .transpose 0].map
    fun c => (c, exEnv 3)

theorem exProg2_played : Played 3 exProg2 := by
  intro c hc
  obtain ⟨d, hd, rfl⟩ := List.mem_map.1 hc
  refine ⟨?_, exEnv_valid 3⟩
  fin_cases hd <;> simp [Cmd.Legal]

/-- A computed form of `AllFit` for programs without choices. -/
theorem allFit_cons {τ : Type} {N : Nat} {eff : (R → Bool) → R → Bool}
    {value : Env R → (Nat → τ) → Cmd R → Res τ}
    {Fit : (Nat → τ) → (Nat → Spec.Mat R) → Cmd R → Prop} {c : Cmd R} {ω : Env R}
    {cs : List (Cmd R × Env R)} {S : Nat → τ} {s : Nat → Spec.Mat R} {A : τ}
    (h1 : Fit S s c) (h2 : value ω S c = .ok A)
    (h3 : AllFit N eff value Fit cs (upd S c.target A) (upd s c.target (Spec.value N eff s c))) :
    AllFit N eff value Fit ((c, ω) :: cs) S s :=
  ⟨h1, fun B e => by rw [h2] at e; cases e; exact h3⟩

example : AllFit 3 (fun t => t) (ellValue 3 2) (EllFit 3 2) exProg2 (fun _ => Ell.zeroMatrix 3 2)
    (fun _ => Spec.zero) := by
  refine allFit_cons (.inl (by decide +kernel)) rfl (allFit_cons (.inl (by decide +kernel)) rfl
    (allFit_cons (.inl (by decide +kernel)) rfl (allFit_cons ?_ rfl (allFit_cons ?_ rfl trivial))))
  · show ∀ i, i < 3 → Spec.rowCount _ _ _ i ≤ 2
    decide +kernel
  · show ∀ j, j < 3 → _ ≤ 2
    decide +kernel

/-- **C46 fails** for ELLPACK with `bml_set_element`: the second assignment to an element in a short
row is lost, whatever follows. -/
theorem C46_ellpack_set_witness :
    (do let S ← run (ellValue 3 3) (withEnv (exEnv 3) [.set 0 0 1 0, .set 0 0 2 0])
          (fun _ => Ell.zeroMatrix 3 3)
        (S 0).getElement 0 0) = .ok 1 ∧
      Spec.after 3 (fun t => t) (withEnv (exEnv 3) [.set 0 0 1 0, .set 0 0 2 0])
        (fun _ => Spec.zero) 0 0 0 = 2 := by decide +kernel

/-- **C46 fails** for ELLPACK rows that are too narrow: the sum has two elements per row, the rows
have one slot, no call reports anything. -/
theorem C46_ellpack_narrow_witness :
    (do let S ← run (ellValue 2 1) (withEnv ({ exEnv 2 with rows := [(0, 1), (1, 0)] }) [.set 0 0 2 0, .set 1 0 5 0, .set 0 1 3 1, .add exBig 1 1 1 0])
          (fun _ => Ell.zeroMatrix 2 1)
        (S 0).getElement 1 0) = .ok 0 ∧
      Spec.after 2 (fun t => t) (withEnv (exEnv 2) [.set 0 0 2 0, .set 1 0 5 0, .set 0 1 3 1, .add exBig 1 1 1 0]) (fun _ => Spec.zero) 0 1 0 = 5 := by decide +kernel

/-- A CSR program that lets row 0 grow beyond its first space of ten entries. -/
def exProg3 : List (Cmd Int × Env Int) :=
  withEnv (exEnv 12) ((List.range 12).map (fun j => .set 0 j ((j : Int) + 2) 0) ++
    [.transpose 0, .square exBig 0 1, .threshold exBig 1])

example : ∃ S', run (csrValue 12 2) exProg3 (fun _ => Csr.newZero 12 2) = .ok S' ∧
    (S' 0).getElement 11 0 = .ok 13 := by
  obtain ⟨S', e, h⟩ := C46_csr_growing (M := 2) exProg3 (S := fun _ => Csr.newZero 12 2)
    (s := fun _ => Spec.zero) (fun v => C32_csr_zero 12 2) (by
      intro c hc
      obtain ⟨d, hd, rfl⟩ := List.mem_map.1 hc
      refine ⟨?_, exEnv_valid 12⟩
      fin_cases hd <;> simp [Cmd.Legal]) (by
      intro c hc
      obtain ⟨d, hd, rfl⟩ := List.mem_map.1 hc
      fin_cases hd <;> trivial)
  exact ⟨S', e, ((h 0).get 11 0 (by omega) (by omega)).trans (by decide +kernel)⟩

/-- **C46 fails** for CSR sums: row 0 of the target has ten entries, its space is full, and the sum
has one entry more: the library reads and writes memory it has given back. -/
theorem C46_csr_add_witness :
    run (csrValue 11 2) (withEnv (exEnv 11) ((List.range 10).map (fun j => .set 0 j 1 0) ++
      [.set 0 10 1 1, .set 0 0 1 1, .add (fun x => decide (x ≠ 0)) 1 1 1 0])) (fun _ => Csr.newZero 11 2) = .ub :=
  Res.eq_ub_of_isUb (by decide +kernel)

end Bml.Props
