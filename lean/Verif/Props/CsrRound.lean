import Verif.Round.Csr2
import Verif.Props.RoundProgram

/-!
# Properties C82 and C83 for CSR matrices

`Spec.csrStored` says which operations, in which order, give each stored entry of a CSR matrix.  It
differs from `Spec.stored` (ELLPACK): a sum updates the entries of `A` in their places, multiplies
them from the right and never skips a zero coefficient; `bml_set_element` finds every column; and
`bml_set_diagonal` stores a zero where the threshold drops the new value.
-/

set_option linter.unusedSectionVars false

namespace Bml.Spec

open History

variable {F : Type} [Zero F] [One F] [Add F] [Mul F] [DecidableEq F]

/-- The rows a call on CSR matrices stores; `s v i` is row `i` of variable `v`, a list of (column,
value).  The transpositions are not covered. -/
def csrStored (N : Nat) (s : Nat → Nat → List (Nat × F)) : Cmd F → Nat → List (Nat × F)
  | .zero _ => fun _ => []
  | .identity _ => fun i => [(i, 1)]
  | .set i j x v => upd (s v) i (csrSetIn j x (s v i))
  | .setRow t i row v => upd (s v) i (rowOf t N row.get)
  | .setDiagonal t d v => fun i => csrSetIn i (if t (d.get i) then d.get i else 0) (s v i)
  | .copyNew v _ | .copy v _ => s v
  | .scaleInplace c v | .scale c v _ => fun i => scaled c (s v i)
  | .add t α β w v => fun i => csrSumRow t α β (s v i) (s w i)
  | .addIdentity t β v => fun i => identityRow t β i (s v i)
  | .scaleAddIdentity t α β v => fun i => identityRow t β i (scaled α (s v i))
  | .threshold t v => fun i => (s v i).filter fun p => t p.2
  | .multiply t α β v w u => fun i =>
    if v = w ∧ α = 1 ∧ β = 0 then productRow t (s v i) (s v) i
    else csrSumRow t β α (s u i) (productRow t (s v i) (s w) i)
  | .square t v _ => fun i => productRow t (s v i) (s v) i
  | .transpose v | .transposeNew v _ => s v

/-- The answers to the questions of a program, from stored entries. -/
def csrShown (N : Nat) : List (Stmt F) → (Nat → Nat → List (Nat × F)) → List (List F)
  | [], _ => []
  | .call c :: cs, s => csrShown N cs (upd s c.target (csrStored N s c))
  | .ask q :: cs, s => shown N s q :: csrShown N cs s

/-- Calls that store the same entries in the same order in every run: not the transpositions. -/
def NotTransposed : Cmd F → Prop
  | .transpose _ | .transposeNew _ _ => False
  | _ => True

/-- Statements with the same answer in every run: not the transpositions, and not the sums over
a whole matrix. -/
def Steady : Stmt F → Prop
  | .call c => NotTransposed c
  | .ask (.trace _) | .ask (.sumSquares _) => False
  | .ask _ => True

/-- Element `j` of a row of `α A + β B` before thresholding. -/
def csrEntry (α β : F) (rowA rowB : List (Nat × F)) (j : Nat) : F :=
  if j ∈ rowA.map Prod.fst then
    if j ∈ rowB.map Prod.fst then entry rowA j * α + β * entry rowB j else entry rowA j * α
  else if j ∈ rowB.map Prod.fst then β * entry rowB j else 0

end Bml.Spec

namespace Bml.SRow

variable {F : Type} [Zero F]

theorem look_append (L L' : SRow F) (j : Nat) :
    look (L ++ L') j = if j ∈ L.map Prod.fst then look L j else look L' j := by
  induction L with
  | nil => simp
  | cons q L ih =>
    rw [List.cons_append, look_cons, look_cons, ih]
    by_cases h : q.1 = j
    · simp [h]
    · simp only [h, if_false, List.map_cons, List.mem_cons, Ne.symm h, false_or]

theorem look_map (g : Nat × F → F) (L : SRow F) (j : Nat) :
    look (L.map fun p => (p.1, g p)) j = if j ∈ L.map Prod.fst then g (j, look L j) else 0 := by
  induction L with
  | nil => simp
  | cons q L ih =>
    rw [List.map_cons, look_cons, look_cons, ih]
    by_cases h : q.1 = j
    · subst h; simp
    · simp only [h, if_false, List.map_cons, List.mem_cons, Ne.symm h, false_or]

theorem look_fresh (L L' : SRow F) {j : Nat} (hj : j ∉ L.map Prod.fst) :
    look (L'.filter fun p => decide (p.1 ∉ L.map Prod.fst)) j = look L' j := by
  induction L' with
  | nil => rfl
  | cons q L' ih =>
    rw [List.filter_cons]
    split
    · rw [look_cons, look_cons, ih]
    · next hq =>
      rw [ih, look_cons, if_neg]
      rintro rfl
      simp [hj] at hq

theorem look_csrSum [Add F] [Mul F] (α β : F) (L L' : SRow F) (j : Nat) :
    look (Spec.csrSum α β L L') j = Spec.csrEntry α β L L' j := by
  unfold Spec.csrSum Spec.csrEntry
  rw [look_append, List.map_map]
  have hm : (L.map (Prod.fst ∘ fun p => (p.1, Spec.csrPart α β L' p))) = L.map Prod.fst := rfl
  rw [hm, look_map, look_map (fun p => β * p.2), Props.entry_eq, Props.entry_eq]
  by_cases hL : j ∈ L.map Prod.fst
  · rw [if_pos hL, if_pos hL, if_pos hL]
    unfold Spec.csrPart look
    cases h : L'.find? fun q => decide (q.1 = j) with
    | none =>
      rw [if_neg]
      intro hj
      obtain ⟨q, hq, he⟩ := List.mem_map.1 hj
      rw [List.find?_eq_none] at h
      exact h q hq (by simpa using he)
    | some q =>
      have h1 := List.mem_of_find?_eq_some h
      have h2 := List.find?_some h
      rw [if_pos (List.mem_map.2 ⟨q, h1, by simpa using h2⟩)]
      rfl
  · rw [if_neg hL, if_neg hL, look_fresh L L' hL]
    have : j ∈ (L'.filter fun p => decide (p.1 ∉ L.map Prod.fst)).map Prod.fst ↔
        j ∈ L'.map Prod.fst := by
      simp only [List.mem_map, List.mem_filter]
      constructor
      · rintro ⟨q, ⟨h1, -⟩, h2⟩
        exact ⟨q, h1, h2⟩
      · rintro ⟨q, h1, rfl⟩
        exact ⟨q, ⟨h1, by simpa using hL⟩, rfl⟩
    simp only [this]

end Bml.SRow

namespace Bml.Props

open History

section Rows

variable {F : Type} [Zero F] [One F] [Add F] [Mul F] [Neg F] [Sub F]

theorem csr_sum_entry {N : Nat} {L L' : List (Nat × F)} (hL : SRow.Good N L) (hL' : SRow.Good N L')
    (big : F → Bool) (α β : F) (j : Nat) :
    SRow.look (Spec.csrSumRow big α β L L') j = Spec.keep big (Spec.csrEntry α β L L' j) := by
  unfold Spec.csrSumRow
  have := SRow.look_filter (Csr.good_csrSum hL hL' α β).1 (fun _ x => big x) j
  rw [this, SRow.look_csrSum]
  rfl

theorem addFits_of_sum {al : Nat} {LA LB : SRow F} {α β : F}
    (h : (Spec.csrSum α β LA LB).length ≤ al) : Csr.AddFits al LA LB := by
  rintro pre p post rfl -
  rw [Csr.csrSum_length] at h
  refine le_trans (Nat.add_le_add_left ?_ _) h
  unfold Csr.fresh
  rw [List.filter_append, List.length_append]
  omega

/-! ## Single calls -/

/-- **C82**, CSR sum: element `(i, j)` of `α A + β B` is `a α + β b` if both are stored, `a α` or
`β b` if one is, for every schedule and every content of the hash table's memory. -/
theorem C82_csr_add {N : Nat} {A B : Csr F} {a b : Spec.Mat F}
    (hA : A.Represents N a) (hB : B.Represents N b) (α β : F) (big : F → Bool) {sc sc' : Sched}
    (hsc : IsSched 0 N sc) (hsc' : IsSched 0 N sc') (junk : Nat → Hash.Slot)
    (hsz : ∀ i, i < N → (A.row i).length ≤ 174762)
    (hfit : ∀ i, i < N →
      (Spec.csrSum α β (A.row i) (B.row i)).length ≤ (A.data.get i).alloc) :
    ∃ X, A.add B α β big sc sc' junk = .ok X ∧ X.Represents N (fun i j =>
      Spec.keep big (Spec.csrEntry α β (A.row i) (B.row i) j)) ∧
      ∀ i, i < N → X.row i = Spec.csrSumRow big α β (A.row i) (B.row i) := by
  obtain ⟨sA, -⟩ := hA.stores
  obtain ⟨sB, -⟩ := hB.stores
  obtain ⟨X, e, h⟩ := Res.wp_exists (Csr.wp_add_list (E := False) sA sB α β big hsc hsc' junk hsz
    fun i hi => addFits_of_sum (hfit i hi))
  refine ⟨X, e, ?_, fun i hi => h.row hi⟩
  have hr := h.represents
  refine ⟨hr.wf, hr.dim, fun i j hi hj => ?_⟩
  rw [hr.get i j hi hj]
  exact congrArg Res.ok (csr_sum_entry (sA.good i hi) (sB.good i hi) big α β j)

/-- **C82**, CSR product: element `(i, j)` of `A B` is the sum, from left to right in the stored order
of row `i` of `A`, of the products of stored entries, for every schedule and whatever the target held.
The rows of the target grow as needed. -/
theorem C82_csr_product {N : Nat} {A B C : Csr F} {a b c : Spec.Mat F} (hA : A.Represents N a)
    (hB : B.Represents N b) (hC : C.Represents N c) (big : F → Bool) {sc : Sched}
    (hsc : IsSched 0 N sc) :
    ∃ X, Csr.multAB A B C big sc = .ok X ∧ X.Represents N (fun i j =>
      let x := Spec.summed (Spec.inColumn j (Spec.terms (A.row i) B.row))
      if i = j ∨ big x = true then x else 0) ∧
      ∀ i, i < N → X.row i = Spec.productRow big (A.row i) B.row i := by
  obtain ⟨sA, -⟩ := hA.stores
  obtain ⟨sB, -⟩ := hB.stores
  obtain ⟨sC, -⟩ := hC.stores
  obtain ⟨X, e, h⟩ := Res.wp_exists (Csr.wp_multAB_list (E := False) sA sB sC big hsc)
  refine ⟨X, e, ?_, fun i hi => h.row hi⟩
  have hr := h.represents
  refine ⟨hr.wf, hr.dim, fun i j hi hj => ?_⟩
  rw [hr.get i j hi hj]
  exact congrArg Res.ok (product_entry big (sA.good i hi).2 (fun k hk => (sB.good k hk).2) i j)

end Rows

/-! ## Programs -/

variable {F : Type} [Zero F] [One F] [Add F] [Mul F] [Neg F] [Sub F] [DecidableEq F]

/-- One call on rows with room for `N` entries. -/
theorem csr_stored_step {N M : Nat} (hN : N ≤ 174762) (c : Cmd F) (ω : Env F) (S : Nat → Csr F)
    (s : Nat → Nat → List (Nat × F)) (h : ∀ v, (S v).Stores N (s v))
    (hw : ∀ v i, i < N → N ≤ ((S v).data.get i).alloc) (hl : c.Legal N)
    (hv : ω.Valid N) (hc : Spec.NotTransposed c) :
    (csrValue N M ω S c).wp False (fun A => A.Stores N (Spec.csrStored N s c)) := by
  have len : ∀ v i, i < N → (s v i).length ≤ N := fun v i hi => good_length ((h v).good i hi)
  have copies : ∀ v w, ((S v).copyInto (S w) ω.rows).wp False (fun A => A.Stores N (s v)) := by
    intro v w
    refine Res.wp_mono' (Csr.wp_copyInto_list (h v) (h w) hv.rows) ?_ fun _ h => h
    rintro ⟨i, hi, hlt⟩
    have := len v i hi
    have := hw w i hi
    omega
  have prod : ∀ t v w i, i < N → SRow.Good N (Spec.productRow t (s v i) (s w) i) :=
    fun t v w i hi => Ell.good_product t i ((h v).good i hi).2 fun k hk => ((h w).good k hk).2
  cases c with
  | zero v => exact Csr.stores_newZero N M
  | identity v => exact Csr.wp_identity_list hv.rows
  | set i j x v => exact Csr.wp_setElement_list (h v) hl.1 hl.2 x
  | setRow t i row v => exact Csr.wp_setRow_list (h v) hl.1 hl.2 t _
  | setDiagonal t d v => exact Csr.wp_setDiagonal_list (h v) hl t
  | copyNew v w => exact Csr.wp_copyNew_list (h v) hv.rows _ _ _
  | copy v w => exact copies v w
  | scaleInplace c v => exact Csr.wp_scaleInplace_list (h v) c hv.rows
  | scale c v w =>
    simp only [csrValue]
    split
    · exact Csr.wp_scaleInplace_list (h v) c hv.rows'
    · unfold Csr.scale
      rw [Res.wp_bind]
      exact Res.wp_mono (copies v w) fun A hA => Csr.wp_scaleInplace_list hA c hv.rows'
  | add t α β w v =>
    exact Csr.wp_add_list (h v) (h w) α β t hv.rows hv.rows' _
      (fun i hi => (len v i hi).trans hN)
      (fun i hi => Csr.addFits_wide ((h v).good i hi) ((h w).good i hi) (hw v i hi))
  | addIdentity t β v => exact Csr.wp_addIdentity_list (h v) β t hv.rows hv.rows'
  | scaleAddIdentity t α β v =>
    simp only [csrValue]
    unfold Csr.scaleAddIdentity
    rw [Res.wp_bind]
    exact Res.wp_mono (Csr.wp_scaleInplace_list (h v) α hv.rows) fun A hA =>
      Csr.wp_addIdentity_list hA β t hv.rows' hv.rows''
  | threshold t v => exact Csr.wp_threshold_list (h v) t hv.rows
  | multiply t α β v w u =>
    simp only [csrValue]
    split
    · next he =>
      subst he
      refine Res.wp_mono (Csr.wp_multiplySelf_list (h v) (h u) α β t hv.rows hv.rows' hv.rows''
        _ _ _ (fun i hi => (len u i hi).trans hN)
        (fun i hi => Csr.addFits_wide ((h u).good i hi) (prod t v v i hi) (hw u i hi))) ?_
      intro X hX
      refine hX.congr fun i _ => ?_
      simp only [Spec.csrStored, true_and]
    · next he =>
      refine Res.wp_mono (Csr.wp_multiply_list (h v) (h w) (h u) α β t hv.rows hv.rows' hv.rows''
        _ _ _ (fun i hi => (len u i hi).trans hN)
        (fun i hi => Csr.addFits_wide ((h u).good i hi) (prod t v w i hi) (hw u i hi))) ?_
      intro X hX
      refine hX.congr fun i _ => ?_
      simp only [Spec.csrStored, he, false_and, if_false]
  | square t v w =>
    simp only [csrValue]
    rw [Res.wp_bind]
    exact Res.wp_mono (Csr.wp_multX2_list (h v) (h w) t hv.rows) fun X hX => hX
  | transpose v => exact absurd hc id
  | transposeNew v w => exact absurd hc id

theorem csr_stored_ask {N : Nat} (q : Ask) (ω : Env F) (S : Nat → Csr F)
    (s : Nat → Nat → List (Nat × F)) (h : ∀ v, (S v).Stores N (s v)) (hl : q.Legal N)
    (hv : ω.Valid N) (hq : Spec.Steady (.ask q : Stmt F)) :
    csrAsk ω S q = .ok (Spec.shown N s q) := by
  have list : ∀ {a : Arr F} {n : Nat} {f : Nat → F}, a.size = n → (∀ k, k < n → a.get k = f k) →
      elems a = (List.range n).map f := by
    intro a n f hs hf
    unfold elems
    rw [hs]
    exact List.map_congr_left fun k hk => hf k (List.mem_range.1 hk)
  cases q with
  | element i j v =>
    simp only [csrAsk]
    rw [(h v).represents.get i j hl.1 hl.2, Res.bind_ok]
    simp only [Spec.shown, entry_eq]
    rfl
  | row i v =>
    obtain ⟨r, e, h1, h2⟩ := Res.wp_exists (Csr.wp_getRow_list (E := False) (h v) hl)
    simp only [csrAsk]
    rw [e, Res.bind_ok, list h1 h2]
    simp only [Spec.shown, entry_eq]
    rfl
  | diagonal v =>
    obtain ⟨r, e, h1, h2⟩ := Res.wp_exists (Csr.wp_getDiagonal_list (E := False) (h v))
    simp only [csrAsk]
    rw [e, Res.bind_ok, list h1 h2]
    simp only [Spec.shown, entry_eq]
    rfl
  | trace v => exact absurd hq id
  | sumSquares v => exact absurd hq id
  | dense o v =>
    obtain ⟨D, e, h1, h2⟩ := Res.wp_exists (Csr.wp_exportDense_list (E := False) (h v) o hv.rows)
    simp only [csrAsk]
    rw [e, Res.bind_ok]
    have key : ∀ k, k < N * N → k / N < N ∧ k % N < N ∧ (k / N) * N + k % N = k := fun k hk =>
      ⟨Nat.div_lt_of_lt_mul hk, Nat.mod_lt _ (Nat.pos_of_ne_zero fun e => by subst e; omega),
        Nat.div_add_mod' k N⟩
    cases o with
    | rowMajor =>
      simp only [Spec.shown, entry_eq]
      refine congrArg Res.ok (list h1 fun k hk => ?_)
      obtain ⟨k1, k2, k3⟩ := key k hk
      have := h2 _ _ k1 k2
      rwa [show Order.addr .rowMajor (k / N) (k % N) N = k from k3] at this
    | colMajor =>
      simp only [Spec.shown, entry_eq]
      refine congrArg Res.ok (list h1 fun k hk => ?_)
      obtain ⟨k1, k2, k3⟩ := key k hk
      have := h2 _ _ k2 k1
      rwa [show Order.addr .colMajor (k % N) (k / N) N = k by
        simp only [Order.addr, COLMAJOR]; omega] at this

/-- One call: the stored rows and the room in them. -/
theorem csr_kept_step {N M : Nat} (hM : N ≤ M ∨ N ≤ 10) (hN : N ≤ 174762) (c : Cmd F) (ω : Env F)
    (S : Nat → Csr F) (s : Nat → Nat → List (Nat × F))
    (h : ∀ v, Csr.Room N M N (S v) ∧ (S v).Stores N (s v)) (hl : c.Legal N)
    (hv : ω.Valid N) (hc : Spec.NotTransposed c) :
    ∃ A, csrValue N M ω S c = .ok A ∧ Csr.Room N M N A ∧ A.Stores N (Spec.csrStored N s c) := by
  obtain ⟨A, e, hA⟩ := Res.wp_exists (csr_stored_step (M := M) hN c ω S s (fun v => (h v).2)
    (fun v => (h v).1.room) hl hv hc)
  exact ⟨A, e, csr_room hM c ω S (fun v => (h v).1) hv A e, hA⟩

/-- **C82**, CSR programs: every run of a program, on any threads and in any schedule, with any
contents of fresh memory, gives exactly the answers of the list specification: the same operations in
the same order.  Rows have room for `N` entries; `bml_set_element` is allowed. -/
theorem C82_csr_program {N M : Nat} (hM : N ≤ M ∨ N ≤ 10) (hN : N ≤ 174762) :
    ∀ {cs : List (Stmt F)} {p : List (Stmt F × Env F)},
    RunOf N cs p → (∀ c ∈ cs, Stmt.Legal N c) → (∀ c ∈ cs, Spec.Steady c) → ∀ {S : Nat → Csr F}
    {s : Nat → Nat → List (Nat × F)}, (∀ v, Csr.Room N M N (S v) ∧ (S v).Stores N (s v)) →
    outputs (csrValue N M) csrAsk p S = .ok (Spec.csrShown N cs s) := by
  intro cs p
  induction p generalizing cs with
  | nil =>
    rintro ⟨rfl, -⟩ _ _ S s _
    rfl
  | cons c p ih =>
    intro hr hl hst S s h
    obtain ⟨c, ω⟩ := c
    obtain ⟨rfl, hv⟩ := hr
    have hω := hv _ List.mem_cons_self
    have hrest : RunOf N (p.map Prod.fst) p := ⟨rfl, fun c hc => hv c (List.mem_cons_of_mem _ hc)⟩
    have hl' : ∀ c ∈ p.map Prod.fst, Stmt.Legal N c := fun c hc => hl c (List.mem_cons_of_mem _ hc)
    have hst' : ∀ c ∈ p.map Prod.fst, Spec.Steady c := fun c hc => hst c (List.mem_cons_of_mem _ hc)
    have hl0 := hl _ List.mem_cons_self
    have hst0 := hst _ List.mem_cons_self
    cases c with
    | call c =>
      obtain ⟨A, e, hA⟩ := csr_kept_step hM hN c ω S s h hl0 hω hst0
      have := ih hrest hl' hst' (S := upd S c.target A)
        (s := upd s c.target (Spec.csrStored N s c)) (fun v => by
          by_cases hv : v = c.target
          · subst hv; rw [upd_same, upd_same]; exact hA
          · rw [upd_ne _ _ hv, upd_ne _ _ hv]; exact h v)
      show (csrValue N M ω S c >>= fun A => outputs _ csrAsk p (upd S c.target A)) = _
      rw [e, Res.bind_ok, this]
      rfl
    | ask q =>
      have h1 := csr_stored_ask q ω S s (fun v => (h v).2) hl0 hω hst0
      have h2 := ih hrest hl' hst' h
      show (csrAsk ω S q >>= fun x => outputs _ csrAsk p S >>= fun xs => pure (x :: xs)) = _
      rw [h1, Res.bind_ok, h2]
      rfl

/-- **C82**, CSR reproducibility: two runs of the same program on matrices with the same stored entries
give the same answers to the last bit, whatever the numbers of threads, the schedules and the contents
of fresh memory.  Nothing is assumed about the arithmetic. -/
theorem C82_csr_reproducible {N M : Nat} (hM : N ≤ M ∨ N ≤ 10) (hN : N ≤ 174762)
    {cs : List (Stmt F)} (hc : ∀ c ∈ cs, Spec.Steady c) (hl : ∀ c ∈ cs, Stmt.Legal N c)
    {p p' : List (Stmt F × Env F)} (hp : RunOf N cs p) (hp' : RunOf N cs p')
    {S S' : Nat → Csr F} {s s' : Nat → Spec.Mat F}
    (hS : ∀ v, Csr.Room N M N (S v) ∧ (S v).Represents N (s v))
    (hS' : ∀ v, Csr.Room N M N (S' v) ∧ (S' v).Represents N (s' v))
    (hsame : ∀ v i, i < N → (S v).row i = (S' v).row i) :
    ∃ out, outputs (csrValue N M) csrAsk p S = .ok out ∧
      outputs (csrValue N M) csrAsk p' S' = .ok out :=
  ⟨_, C82_csr_program hM hN hp hl hc (s := fun v => (S v).row)
      fun v => ⟨(hS v).1, (hS v).2.stores.1⟩,
    C82_csr_program hM hN hp' hl hc fun v => ⟨(hS' v).1,
      (hS' v).2.stores.1.congr fun i hi => (hsame v i hi).symm⟩⟩

/-! ## Rounding errors -/

section Errors

open _root_.Bml.Spec

variable {K : Type} [NormedField K] {val : F → K} {u : ℝ}

/-- The error of an element of a computed sum. -/
theorem csr_sum_error (h : Rounds val u) {N : Nat} {L L' : List (Nat × F)}
    (hL : SRow.Good N L) (hL' : SRow.Good N L') (α β : F) {big : F → Bool} {τ : ℝ}
    (hτ : ∀ x, big x = false → ‖val x‖ ≤ τ) (hτ0 : 0 ≤ τ) (j : Nat) :
    ‖val (SRow.look (csrSumRow big α β L L') j)
        - (val α * val (SRow.look L j) + val β * val (SRow.look L' j))‖
      ≤ ((1 + u) ^ 2 - 1)
        * (‖val α‖ * ‖val (SRow.look L j)‖ + ‖val β‖ * ‖val (SRow.look L' j)‖) + τ := by
  rw [csr_sum_entry hL hL' big α β j]
  have hu := h.unit
  have he : ‖val (csrEntry α β L L' j)
        - (val α * val (SRow.look L j) + val β * val (SRow.look L' j))‖
      ≤ ((1 + u) ^ 2 - 1)
        * (‖val α‖ * ‖val (SRow.look L j)‖ + ‖val β‖ * ‖val (SRow.look L' j)‖) := by
    unfold csrEntry
    rw [entry_eq, entry_eq]
    have hx0 : j ∉ L.map Prod.fst → val (SRow.look L j) = 0 := fun hn => by
      rw [SRow.look_of_not_mem hn, h.zero]
    have hy0 : j ∉ L'.map Prod.fst → val (SRow.look L' j) = 0 := fun hn => by
      rw [SRow.look_of_not_mem hn, h.zero]
    have h1 := h.mul (SRow.look L j) α
    have h2 := h.mul β (SRow.look L' j)
    have h3 := h.add (SRow.look L j * α) (β * SRow.look L' j)
    generalize SRow.look L j = x at *
    generalize SRow.look L' j = y at *
    rw [norm_mul, mul_comm (val x), mul_comm ‖val x‖] at h1
    rw [norm_mul] at h2
    have ha : 0 ≤ ‖val α‖ * ‖val x‖ := mul_nonneg (norm_nonneg _) (norm_nonneg _)
    have hb : 0 ≤ ‖val β‖ * ‖val y‖ := mul_nonneg (norm_nonneg _) (norm_nonneg _)
    have hpq : (1 + u) ^ 2 - 1 = u + u * (1 + u) := by ring
    rw [hpq]
    split
    · split
      · have h4 := norm_of_near h1
        have h5 := norm_of_near h2
        rw [norm_mul] at h4 h5
        have h6 : ‖val (x * α) + val (β * y)‖
            ≤ (1 + u) * (‖val α‖ * ‖val x‖ + ‖val β‖ * ‖val y‖) := by
          refine (norm_add_le _ _).trans ?_
          linarith
        have h7 := mul_le_mul_of_nonneg_left h6 hu
        have h8 : val (x * α + β * y) - (val α * val x + val β * val y)
            = (val (x * α + β * y) - (val (x * α) + val (β * y)))
              + ((val (x * α) - val α * val x) + (val (β * y) - val β * val y)) := by ring
        rw [h8]
        refine (norm_add_le _ _).trans ?_
        have h9 := norm_add_le (val (x * α) - val α * val x) (val (β * y) - val β * val y)
        nlinarith
      · next hn =>
        rw [hy0 hn, mul_zero, add_zero, norm_zero, mul_zero, add_zero]
        nlinarith [mul_nonneg (mul_nonneg hu (by linarith : 0 ≤ 1 + u)) ha]
    · next hn =>
      rw [hx0 hn, mul_zero, zero_add, norm_zero, mul_zero, zero_add]
      split
      · nlinarith [mul_nonneg (mul_nonneg hu (by linarith : 0 ≤ 1 + u)) hb]
      · next hm =>
        rw [hy0 hm, h.zero]
        simp
  generalize csrEntry α β L L' j = x at he ⊢
  have hd := drop_error h hτ hτ0 x
  have := norm_sub_le_norm_sub_add_norm_sub (val (keep big x)) (val x)
    (val α * val (SRow.look L j) + val β * val (SRow.look L' j))
  linarith

theorem near_csr_sum (h : Rounds val u) {N : Nat} {L L' : SRow F} (hL : SRow.Good N L)
    (hL' : SRow.Good N L') (c d : F) {big : F → Bool} {τ : ℝ}
    (hτ : 0 ≤ τ ∧ ∀ x, big x = false → ‖val x‖ ≤ τ) {j : Nat} {x y : K} {e f : ℝ}
    (hx : ‖val (SRow.look L j) - x‖ ≤ e) (hy : ‖val (SRow.look L' j) - y‖ ≤ f) :
    ‖val (SRow.look (csrSumRow big c d L L') j) - (val c * x + val d * y)‖
      ≤ errSum u τ (val c) x e (val d) y f := by
  have h1 := csr_sum_error h hL hL' c d hτ.2 hτ.1 j
  generalize SRow.look L j = x' at *
  generalize SRow.look L' j = y' at *
  have h2 : ‖(val c * val x' + val d * val y') - (val c * x + val d * y)‖
      ≤ ‖val c‖ * e + ‖val d‖ * f := by
    have : (val c * val x' + val d * val y') - (val c * x + val d * y)
        = val c * (val x' - x) + val d * (val y' - y) := by ring
    rw [this]
    refine (norm_add_le _ _).trans ?_
    rw [norm_mul, norm_mul]
    exact add_le_add (mul_le_mul_of_nonneg_left hx (norm_nonneg _))
      (mul_le_mul_of_nonneg_left hy (norm_nonneg _))
  have h3 := norm_sub_le_norm_sub_add_norm_sub (val (SRow.look (csrSumRow big c d L L') j))
    (val c * val x' + val d * val y') (val c * x + val d * y)
  have h4 : ((1 + u) ^ 2 - 1) * (‖val c‖ * ‖val x'‖ + ‖val d‖ * ‖val y'‖)
      ≤ ((1 + u) ^ 2 - 1) * (‖val c‖ * (‖x‖ + e) + ‖val d‖ * (‖y‖ + f)) :=
    mul_le_mul_of_nonneg_left (add_le_add
      (mul_le_mul_of_nonneg_left (norm_of_near hx) (norm_nonneg _))
      (mul_le_mul_of_nonneg_left (norm_of_near hy) (norm_nonneg _))) (sub_nonneg.2 (h.one_le 2))
  unfold errSum
  linarith

theorem look_csrSetIn {L : SRow F} (i : Nat) (y : F) (j : Nat) :
    SRow.look (csrSetIn i y L) j = if j = i then y else SRow.look L j := by
  unfold csrSetIn
  split
  · next hc =>
    rw [SRow.look_change]
    by_cases hj : j = i
    · rw [if_pos ⟨hj, hc⟩, if_pos hj]
    · rw [if_neg (fun h => hj h.1), if_neg hj]
  · next hc =>
    rw [Ell.look_append_single hc]
    by_cases hj : j = i
    · rw [if_pos hj.symm, if_pos hj]
    · rw [if_neg (Ne.symm hj), if_neg hj]

/-- One call: the stored elements stay within the bounds, the same as for ELLPACK. -/
theorem near_csr_step (h : Rounds val u) (h1 : val 1 = 1) {τ : (F → Bool) → ℝ} {N : Nat}
    {s : Nat → Nat → List (Nat × F)} (hg : ∀ v i, i < N → SRow.Good N (s v i))
    {x : Nat → Mat K} {e : Nat → Mat ℝ}
    (hn : ∀ v i j, i < N → j < N → ‖val (SRow.look (s v i) j) - x v i j‖ ≤ e v i j) (c : Cmd F)
    (hd : Drops val τ c) (hc : NotTransposed c) {i j : Nat} (hi : i < N) (hj : j < N) :
    ‖val (SRow.look (csrStored N s c i) j) - exact val N x c i j‖ ≤ bound val u τ N x e c i j := by
  cases c with
  | zero v => simp [csrStored, exact, bound, h.zero]
  | identity v =>
    simp only [csrStored, exact, bound, SRow.look_cons, SRow.look_nil]
    split
    · simp [h1]
    · simp [h.zero]
  | set i' j' y v =>
    simp only [csrStored, exact, bound]
    by_cases hii : i = i'
    · subst hii
      rw [upd_same, look_csrSetIn]
      by_cases hjj : j = j'
      · simp [hjj]
      · simp only [hjj, and_false, if_false]
        exact hn v i j hi hj
    · rw [upd_ne _ _ hii, if_neg (fun h => hii h.1), if_neg (fun h => hii h.1)]
      exact hn v i j hi hj
  | setRow t i' row v =>
    simp only [csrStored, exact, bound]
    by_cases hii : i = i'
    · subst hii
      rw [upd_same, if_pos rfl, if_pos rfl, SRow.look_rowOf t row.get hj]
      exact drop_error h hd.2 hd.1 _
    · rw [upd_ne _ _ hii, if_neg hii, if_neg hii]
      exact hn v i j hi hj
  | setDiagonal t d v =>
    simp only [csrStored, exact, bound]
    rw [look_csrSetIn]
    by_cases hij : i = j
    · rw [if_pos hij.symm, if_pos hij, if_pos hij]
      exact drop_error h hd.2 hd.1 _
    · rw [if_neg (Ne.symm hij), if_neg hij, if_neg hij]
      exact hn v i j hi hj
  | copyNew v w => exact hn v i j hi hj
  | copy v w => exact hn v i j hi hj
  | scaleInplace c v => exact near_scale h c (hn v i j hi hj)
  | scale c v w => exact near_scale h c (hn v i j hi hj)
  | add t α β w v =>
    exact near_csr_sum h (hg v i hi) (hg w i hi) α β hd (hn v i j hi hj) (hn w i j hi hj)
  | addIdentity t β v => exact near_identity h (hg v i hi) hi β hd (hn v i j hi hj)
  | scaleAddIdentity t α β v =>
    exact near_identity h (SRow.good_scaled (hg v i hi) α) hi β hd (near_scale h α (hn v i j hi hj))
  | threshold t v =>
    simp only [csrStored, exact, bound]
    have hf := SRow.look_filter (hg v i hi).1 (fun _ y => t y) j
    rw [hf]
    exact near_keep h hd (hn v i j hi hj)
  | multiply t α β v w c =>
    have hp := near_inner h (hg v i hi) (hg w) hd i j (fun k hk => hn v i k hi hk)
      (fun k hk => hn w k j hk hj)
    simp only [csrStored, exact, bound]
    split
    · next hc =>
      obtain ⟨rfl, rfl, rfl⟩ := hc
      rw [h1, h.zero, one_mul, zero_mul, add_zero]
      refine hp.trans ?_
      have he : 0 ≤ errInner u (τ t) N (x v i) (e v i) (fun k => x v k j) fun k => e v k j :=
        (norm_nonneg _).trans hp
      generalize errInner u (τ t) N (x v i) (e v i) (fun k => x v k j) (fun k => e v k j) = E at he
      unfold errSum
      have h2 := sub_nonneg.2 (h.one_le 2)
      have := mul_nonneg h2 (add_nonneg (norm_nonneg (∑ k ∈ Finset.range N, x v i k * x v k j)) he)
      simp only [norm_zero, norm_one, zero_mul, one_mul, zero_add]
      linarith [hd.1]
    · have := near_csr_sum h (hg c i hi)
        (Ell.good_product t i (hg v i hi).2 (fun k hk => (hg w k hk).2)) β α hd (hn c i j hi hj) hp
      rwa [add_comm (val β * _)] at this
  | square t v w =>
    exact near_inner h (hg v i hi) (hg v) hd i j (fun k hk => hn v i k hi hk)
      (fun k hk => hn v k j hk hj)
  | transpose v => exact absurd hc id
  | transposeNew v w => exact absurd hc id

/-- **C83**, CSR programs: after a program of any length the elements differ from the exact values by
at most the accumulated bound, for every schedule and every content of fresh memory.  At the start the
variables hold `a` up to the errors `e`. -/
theorem C83_csr_program (h : Rounds val u) (h1 : val 1 = 1) {τ : (F → Bool) → ℝ} {N M : Nat}
    (hM : N ≤ M ∨ N ≤ 10) (hN : N ≤ 174762) : ∀ {p : List (Cmd F × Env F)} {S : Nat → Csr F}
    {a : Nat → Mat F} {x : Nat → Mat K} {e : Nat → Mat ℝ},
    (∀ c ∈ p, c.1.Legal N ∧ c.2.Valid N ∧ Drops val τ c.1 ∧ NotTransposed c.1) →
    (∀ v, Csr.Room N M N (S v) ∧ (S v).Represents N (a v)) →
    (∀ v i j, i < N → j < N → ‖val (a v i j) - x v i j‖ ≤ e v i j) →
    ∃ (S' : Nat → Csr F) (b : Nat → Mat F), run (csrValue N M) p S = .ok S' ∧
      (∀ v, Csr.Room N M N (S' v) ∧ (S' v).Represents N (b v)) ∧
      ∀ v i j, i < N → j < N →
        ‖val (b v i j) - (estimate val u τ N (p.map Prod.fst) (x, e)).1 v i j‖
          ≤ (estimate val u τ N (p.map Prod.fst) (x, e)).2 v i j := by
  intro p
  induction p with
  | nil =>
    intro S a x e _ hS hn
    exact ⟨S, a, rfl, hS, hn⟩
  | cons c p ih =>
    intro S a x e hp hS hn
    obtain ⟨c, ω⟩ := c
    obtain ⟨hl, hω, hd, hc⟩ := hp _ List.mem_cons_self
    have hs := fun v => (hS v).2.stores
    obtain ⟨A, eA, rA, hA⟩ := csr_kept_step hM hN c ω S (fun v => (S v).row)
      (fun v => ⟨(hS v).1, (hs v).1⟩) hl hω hc
    obtain ⟨S', b, e1, e2, e3⟩ := ih (S := upd S c.target A)
      (a := upd a c.target fun i j => SRow.look (csrStored N (fun v => (S v).row) c i) j)
      (x := upd x c.target (exact val N x c))
      (e := upd e c.target (bound val u τ N x e c))
      (fun c hc => hp c (List.mem_cons_of_mem _ hc))
      (fun v => by
        by_cases hv : v = c.target
        · subst hv; rw [upd_same, upd_same]; exact ⟨rA, hA.represents⟩
        · rw [upd_ne _ _ hv, upd_ne _ _ hv]; exact hS v)
      (fun v i j hi hj => by
        by_cases hv : v = c.target
        · subst hv
          rw [upd_same, upd_same, upd_same]
          refine near_csr_step h h1 (fun v i hi => (hs v).1.good i hi) ?_ c hd hc hi hj
          intro v i j hi hj
          rw [(hs v).2 i j hi hj]
          exact hn v i j hi hj
        · rw [upd_ne _ _ hv, upd_ne _ _ hv, upd_ne _ _ hv]
          exact hn v i j hi hj)
    refine ⟨S', b, ?_, e2, e3⟩
    show (csrValue N M ω S c >>= fun A => run (csrValue N M) p (upd S c.target A)) = _
    rw [eA, Res.bind_ok, e1]

/-- **C83**, CSR sum: an element of the computed `α A + β B` differs from the exact one by at most
`((1 + u)² - 1) (|α a| + |β b|)` plus the threshold. -/
theorem C83_csr_add (h : Rounds val u) {N : Nat} {A B : Csr F} {a b : Mat F}
    (hA : A.Represents N a) (hB : B.Represents N b) (α β : F) {big : F → Bool} {τ : ℝ}
    (hτ : ∀ x, big x = false → ‖val x‖ ≤ τ) (hτ0 : 0 ≤ τ) {sc sc' : Sched}
    (hsc : IsSched 0 N sc) (hsc' : IsSched 0 N sc') (junk : Nat → Hash.Slot)
    (hsz : ∀ i, i < N → (A.row i).length ≤ 174762)
    (hfit : ∀ i, i < N →
      (csrSum α β (A.row i) (B.row i)).length ≤ (A.data.get i).alloc) :
    ∃ X x, A.add B α β big sc sc' junk = .ok X ∧ X.Represents N x ∧ ∀ i j, i < N → j < N →
      ‖val (x i j) - (val α * val (a i j) + val β * val (b i j))‖
        ≤ ((1 + u) ^ 2 - 1) * (‖val α‖ * ‖val (a i j)‖ + ‖val β‖ * ‖val (b i j)‖) + τ := by
  obtain ⟨sA, lA⟩ := hA.stores
  obtain ⟨sB, lB⟩ := hB.stores
  obtain ⟨X, e, h'⟩ := Res.wp_exists (Csr.wp_add_list (E := False) sA sB α β big hsc hsc' junk hsz
    fun i hi => addFits_of_sum (hfit i hi))
  refine ⟨X, _, e, h'.represents, fun i j hi hj => ?_⟩
  have := csr_sum_error h (sA.good i hi) (sB.good i hi) α β hτ hτ0 j
  rwa [lA i j hi hj, lB i j hi hj] at this

/-- **C83**, CSR product: an element of the computed `A B` differs from the exact one by at most
`((1 + u)^N - 1) Σ |a_ik| |b_kj|` plus the threshold. -/
theorem C83_csr_product (h : Rounds val u) {N : Nat} {A B C : Csr F} {a b c : Mat F}
    (hA : A.Represents N a) (hB : B.Represents N b) (hC : C.Represents N c) {big : F → Bool} {τ : ℝ}
    (hτ : ∀ x, big x = false → ‖val x‖ ≤ τ) (hτ0 : 0 ≤ τ) {sc : Sched} (hsc : IsSched 0 N sc) :
    ∃ X x, Csr.multAB A B C big sc = .ok X ∧ X.Represents N x ∧ ∀ i j, i < N → j < N →
      ‖val (x i j) - ∑ k ∈ Finset.range N, val (a i k) * val (b k j)‖
        ≤ ((1 + u) ^ N - 1) * (∑ k ∈ Finset.range N, ‖val (a i k)‖ * ‖val (b k j)‖) + τ := by
  obtain ⟨sA, lA⟩ := hA.stores
  obtain ⟨sB, lB⟩ := hB.stores
  obtain ⟨sC, -⟩ := hC.stores
  obtain ⟨X, e, h'⟩ := Res.wp_exists (Csr.wp_multAB_list (E := False) sA sB sC big hsc)
  refine ⟨X, _, e, h'.represents, fun i j hi hj => ?_⟩
  have := near_inner h (sA.good i hi) (fun k hk => sB.good k hk) ⟨hτ0, hτ⟩ i j
    (x := fun k => val (a i k)) (y := fun k => val (b k j)) (e := fun _ => 0) (f := fun _ => 0)
    (fun k hk => by rw [lA i k hi hk, sub_self, norm_zero])
    (fun k hk => by rw [lB k j hk hj, sub_self, norm_zero])
  unfold errInner at this
  simpa using this

/-- **C83**, CSR trace: every thread adds the diagonal elements of its rows, and the sums of the
threads are added in any order and bracketing. -/
theorem C83_csr_trace (h : Rounds val u) {N : Nat} {A : Csr F} {a : Mat F}
    (hA : A.Represents N a) {sc : Sched} (hsc : IsSched 0 N sc) {ts : List Nat} (hn : ts.Nodup)
    (hts : ∀ e ∈ sc, e.1 ∈ ts) :
    ∃ part : Nat → F, (∀ t, Csr.trace A (sc.filter fun e => decide (e.1 = t)) = .ok (part t)) ∧
      ∀ total, SumOf part ts total →
        ‖val total - ∑ i ∈ Finset.range N, val (a i i)‖
          ≤ ((1 + u) ^ (N - 1) - 1) * ∑ i ∈ Finset.range N, ‖val (a i i)‖ := by
  obtain ⟨sA, lA⟩ := hA.stores
  have hlt : ∀ t, ∀ e ∈ sc.filter (fun e => decide (e.1 = t)), e.2 < N := by
    intro t e he
    exact ((hsc.mem e.2).1 (List.mem_map_of_mem (List.mem_filter.1 he).1)).2
  have hp := fun t => Res.wp_exists (Csr.wp_trace_sum (E := False) sA (hlt t))
  choose part h1 h2 using hp
  refine ⟨part, h1, fun total ht => ?_⟩
  have hs := (SumOf.bind h2 ht).perm (threads_perm hsc hn hts)
  have he := (SumOf.error h hs (fun i => val (a i i)) 0 (fun i hi => by
    have hi := List.mem_range.1 hi
    simp [lA i i hi hi])).1
  rw [List.length_range, Nat.zero_add] at he
  exact he

/-- **C83**, CSR sum of squares: the total differs from the exact one by at most
`((1 + u)^n - 1) Σ |a_ij|²`, with `n` the number of stored entries. -/
theorem C83_csr_sum_squares (h : Rounds val u) {N : Nat} {A : Csr F} {a : Mat F}
    (hA : A.Represents N a) {sc : Sched} (hsc : IsSched 0 N sc) {ts : List Nat} (hn : ts.Nodup)
    (hts : ∀ e ∈ sc, e.1 ∈ ts) :
    ∃ part : Nat → F,
      (∀ t, Csr.sumSquares A (sc.filter fun e => decide (e.1 = t)) = .ok (part t)) ∧
      ∀ total, SumOf part ts total →
        ‖val total - ∑ i ∈ Finset.range N, ∑ j ∈ Finset.range N, val (a i j) * val (a i j)‖
          ≤ ((1 + u) ^ (∑ i ∈ Finset.range N, (A.data.get i).nnz) - 1)
            * ∑ i ∈ Finset.range N, ∑ j ∈ Finset.range N, ‖val (a i j)‖ * ‖val (a i j)‖ := by
  obtain ⟨sA, lA⟩ := hA.stores
  have hlt : ∀ t, ∀ e ∈ sc.filter (fun e => decide (e.1 = t)), e.2 < N := by
    intro t e he
    exact ((hsc.mem e.2).1 (List.mem_map_of_mem (List.mem_filter.1 he).1)).2
  have hp := fun t => Res.wp_exists (Csr.wp_sumSquares_sum (E := False) sA (hlt t))
  choose part h1 h2 using hp
  refine ⟨part, h1, fun total ht => ?_⟩
  have hs := SumOf.bind h2 ht
  rw [← List.flatMap_assoc] at hs
  have hs := hs.perm ((threads_perm hsc hn hts).flatMap_right A.row)
  have he := SumOf.error h hs (fun p => val p.2 * val p.2) 1 (fun p _ => by
    rw [pow_one]
    simpa using h.mul p.2 p.2)
  have hsum : ∀ {K' : Type} [AddCommMonoid K'] (f : F → K'), f 0 = 0 →
      (((List.range N).flatMap A.row).map fun p => f p.2).sum
        = ∑ i ∈ Finset.range N, ∑ j ∈ Finset.range N, f (a i j) := by
    intro K' _ f h0
    have : ∀ n, n ≤ N → (((List.range n).flatMap A.row).map fun p => f p.2).sum
        = ∑ i ∈ Finset.range n, ∑ j ∈ Finset.range N, f (a i j) := by
      intro n hnN
      induction n with
      | zero => simp
      | succ n ih =>
        rw [List.range_succ, List.flatMap_append, List.map_append, List.sum_append, ih (by omega),
          Finset.sum_range_succ]
        congr 1
        simp only [List.flatMap_cons, List.flatMap_nil, List.append_nil]
        rw [sum_entries (sA.good n (by omega)) (fun _ x => f x) (fun _ => h0)]
        exact Finset.sum_congr rfl fun j hj => by
          rw [lA n j (by omega) (Finset.mem_range.1 hj)]
    exact this N (Nat.le_refl N)
  have hlen : ((List.range N).flatMap A.row).length
      = ∑ i ∈ Finset.range N, (A.data.get i).nnz := by
    have : ∀ n, n ≤ N → ((List.range n).flatMap A.row).length
        = ∑ i ∈ Finset.range n, (A.data.get i).nnz := by
      intro n hnN
      induction n with
      | zero => simp
      | succ n ih =>
        rw [List.range_succ, List.flatMap_append, List.length_append, ih (by omega),
          Finset.sum_range_succ, (sA.is n (by omega)).length]
        simp
    exact this N (Nat.le_refl N)
  have e1 := hsum (fun x => val x * val x) (by simp [h.zero])
  have e2 := hsum (fun x => ‖val x‖ * ‖val x‖) (by simp [h.zero])
  by_cases h0 : (List.range N).flatMap A.row = []
  · rw [h0] at e1 e2
    rw [← e1, ← e2]
    simp [he.2 h0]
  · have he1 := he.1
    simp only [norm_mul] at he1
    rw [e1, e2] at he1
    have : 1 + (((List.range N).flatMap A.row).length - 1)
        = ∑ i ∈ Finset.range N, (A.data.get i).nnz := by
      rw [← hlen]
      have := List.length_pos_iff.2 h0
      omega
    rwa [this] at he1

end Errors

/-! ## Examples: three-bit arithmetic -/

/-- The CSR matrix with rows `x . .`, `1 . .`, `1 . .` and room for ten entries in each row. -/
def scMat (x : Int) : Csr Short :=
  ⟨3, 3, ⟨3, fun i => ⟨1, ⟨10, fun _ => if i = 0 then ⟨x⟩ else ⟨1⟩⟩, ⟨10, fun _ => 0⟩, 10⟩⟩⟩

theorem scMat_room (x : Int) : Csr.Room 3 3 3 (scMat x) := ⟨rfl, rfl, rfl, fun _ _ => show 3 ≤ 10 by decide⟩

theorem scMat_represents (x : Int) : (scMat x).Represents 3
    (fun i j => if j = 0 then (if i = 0 then ⟨x⟩ else ⟨1⟩) else 0) := by
  have h : (scMat x).Stores 3 (fun i => [(0, if i = 0 then ⟨x⟩ else ⟨1⟩)]) := by
    refine ⟨rfl, rfl, fun i _ => ⟨⟨rfl, rfl, show 1 ≤ 10 by decide, show 10 ≤ 10 by decide⟩, rfl⟩, fun i hi => ⟨by simp, by simp⟩⟩
  have hr := h.represents
  refine ⟨hr.wf, hr.dim, fun i j hi hj => ?_⟩
  rw [hr.get i j hi hj, SRow.look_cons]
  by_cases h : j = 0
  · subst h; rfl
  · rw [if_neg h, if_neg (Ne.symm h)]; rfl

/-- Sets a row and elements, multiplies, adds, squares and asks. -/
def scStmts : List (Stmt Short) :=
  [.call (.setRow shBig 1 ⟨3, fun j => ⟨2 * j + 3⟩⟩ 0), .call (.set 1 0 ⟨9⟩ 0), .call (.set 0 2 ⟨7⟩ 0),
    .call (.multiply shBig ⟨3⟩ ⟨1⟩ 0 1 2), .call (.add shBig ⟨3⟩ ⟨-1⟩ 2 1), .call (.square shBig 1 3),
    .call (.addIdentity shBig ⟨9⟩ 3), .ask (.element 1 1 3), .ask (.row 0 3),
    .ask (.dense .colMajor 2)]

/-- Two threads backwards and one thread forwards, with different junk in memory, get the same
answers in short arithmetic. -/
example : ∃ out,
    outputs (csrValue 3 3) csrAsk
      (scStmts.map fun c => (c, shEnv 3 [(1, 2), (0, 1), (1, 0)] true ⟨5⟩)) (fun _ => scMat 8)
      = .ok out ∧
    outputs (csrValue 3 3) csrAsk
      (scStmts.map fun c => (c, shEnv 3 [(0, 0), (0, 1), (0, 2)] false ⟨7⟩)) (fun _ => scMat 8)
      = .ok out := by
  have hrun : ∀ ω : Env Short, ω.Valid 3 → RunOf 3 scStmts (scStmts.map fun c => (c, ω)) := by
    intro ω hω
    refine ⟨by rw [List.map_map]; exact List.map_id _, ?_⟩
    rintro c hc
    obtain ⟨d, -, rfl⟩ := List.mem_map.1 hc
    exact hω
  refine C82_csr_reproducible (.inl (by decide)) (by decide) (cs := scStmts) ?_ ?_
    (hrun _ (shEnv_valid (by unfold IsSched; decide) _ _))
    (hrun _ (shEnv_valid (by unfold IsSched; decide) _ _))
    (fun _ => ⟨scMat_room 8, scMat_represents 8⟩) (fun _ => ⟨scMat_room 8, scMat_represents 8⟩)
    fun _ _ _ => rfl
  · intro c hc
    simp only [scStmts, List.mem_cons, List.not_mem_nil, or_false] at hc
    rcases hc with rfl | rfl | rfl | rfl | rfl | rfl | rfl | rfl | rfl | rfl <;> trivial
  · intro c hc
    simp only [scStmts, List.mem_cons, List.not_mem_nil, or_false] at hc
    rcases hc with rfl | rfl | rfl | rfl | rfl | rfl | rfl | rfl | rfl | rfl <;>
      simp [Stmt.Legal, Cmd.Legal, Ask.Legal]

/-- Single calls: the hypotheses hold for these matrices. -/
example : ∃ X, Csr.multAB (scMat 9) (scMat 5) (scMat 1) shBig [(1, 2), (0, 1), (1, 0)] = .ok X ∧
    X.row 0 = [(0, ⟨40⟩)] := by
  obtain ⟨X, e, -, hr⟩ := C82_csr_product (scMat_represents 9) (scMat_represents 5)
    (scMat_represents 1) shBig (sc := [(1, 2), (0, 1), (1, 0)]) (by unfold IsSched; decide)
  exact ⟨X, e, (hr 0 (by decide)).trans (by decide +kernel)⟩

example : ∃ X, Csr.add (scMat 9) (scMat 5) ⟨3⟩ ⟨-1⟩ shBig [(1, 2), (0, 1), (1, 0)]
      [(0, 0), (0, 1), (0, 2)] (fun _ => ⟨none, 7, 7⟩) = .ok X ∧ X.row 0 = [(0, ⟨16⟩)] := by
  obtain ⟨X, e, -, hr⟩ := C82_csr_add (scMat_represents 9) (scMat_represents 5) ⟨3⟩ ⟨-1⟩ shBig
    (sc := [(1, 2), (0, 1), (1, 0)]) (sc' := [(0, 0), (0, 1), (0, 2)]) (by unfold IsSched; decide)
    (by unfold IsSched; decide) (fun _ => ⟨none, 7, 7⟩) (by decide +kernel) (by decide +kernel)
  exact ⟨X, e, (hr 0 (by decide)).trans (by decide +kernel)⟩

/-- Rounding: variable 2 becomes `3 A B + C`. -/
example : ∃ (S' : Nat → Csr Short) (b : Nat → Spec.Mat Short), run (csrValue 3 3)
      [(.copyNew 0 1, shEnv 3 [(1, 2), (0, 1), (1, 0)] true ⟨5⟩),
        (.multiply shBig ⟨3⟩ 1 0 1 2, shEnv 3 [(1, 2), (0, 1), (1, 0)] true ⟨5⟩)]
      (fun _ => scMat 9) = .ok S' ∧ (∀ v, Csr.Room 3 3 3 (S' v) ∧ (S' v).Represents 3 (b v)) ∧
      |((b 2 0 0).val : ℝ) - 252| ≤ 515727 / 1024 := by
  have hω : (shEnv 3 [(1, 2), (0, 1), (1, 0)] true ⟨5⟩).Valid 3 :=
    shEnv_valid (by unfold IsSched; decide) _ _
  have hd : 0 ≤ (0 : ℝ) ∧ ∀ x, shBig x = false → ‖((x.val : Int) : ℝ)‖ ≤ 0 :=
    ⟨le_refl _, shBig_drops⟩
  obtain ⟨S', b, e1, e2, e3⟩ := C83_csr_program (val := fun x : Short => (x.val : ℝ)) Short.rounds
    (show ((1 : Int) : ℝ) = 1 by norm_num) (τ := fun _ => 0) (N := 3) (M := 3) (.inl (by decide))
    (by decide)
    (p := [(.copyNew 0 1, shEnv 3 [(1, 2), (0, 1), (1, 0)] true ⟨5⟩),
        (.multiply shBig ⟨3⟩ 1 0 1 2, shEnv 3 [(1, 2), (0, 1), (1, 0)] true ⟨5⟩)])
    (S := fun _ => scMat 9)
    (x := fun _ i j => (((if j = 0 then (if i = 0 then ⟨9⟩ else ⟨1⟩) else 0 : Short).val : Int) : ℝ))
    (e := fun _ _ _ => 0)
    (fun c hc => by
      simp only [List.mem_cons, List.not_mem_nil, or_false] at hc
      rcases hc with rfl | rfl
      · exact ⟨trivial, hω, trivial, trivial⟩
      · exact ⟨⟨by decide, by decide⟩, hω, hd, trivial⟩)
    (fun _ => ⟨scMat_room 9, scMat_represents 9⟩)
    (fun v i j _ _ => by simp)
  refine ⟨S', b, e1, e2, ?_⟩
  have := e3 2 0 0 (by decide) (by decide)
  simp [Spec.estimate, Spec.exact, Spec.bound, Spec.errSum, Spec.errInner, Cmd.target, upd,
    Finset.sum_range_succ,
    show ((0 : Short).val) = 0 from rfl, show ((1 : Short).val) = 1 from rfl] at this
  norm_num at this
  exact this

example : ∃ X x, Csr.add (scMat 9) (scMat 5) ⟨3⟩ ⟨-1⟩ shBig [(1, 2), (0, 1), (1, 0)]
      [(0, 0), (0, 1), (0, 2)] (fun _ => ⟨none, 7, 7⟩) = .ok X ∧
    X.Represents 3 x ∧ |((x 0 0).val : ℝ) - 22| ≤ 18 := by
  obtain ⟨X, x, e, hX, hb⟩ := C83_csr_add Short.rounds (scMat_represents 9) (scMat_represents 5)
    ⟨3⟩ ⟨-1⟩ (big := shBig) shBig_drops (le_refl 0) (sc := [(1, 2), (0, 1), (1, 0)])
    (sc' := [(0, 0), (0, 1), (0, 2)]) (by unfold IsSched; decide)
    (by unfold IsSched; decide) (fun _ => ⟨none, 7, 7⟩) (by decide +kernel) (by decide +kernel)
  refine ⟨X, x, e, hX, ?_⟩
  have := hb 0 0 (by decide) (by decide)
  norm_num at this
  exact this

example : ∃ X x, Csr.multAB (scMat 9) (scMat 5) (scMat 1) shBig [(1, 2), (0, 1), (1, 0)] = .ok X ∧
    X.Represents 3 x ∧ |((x 0 0).val : ℝ) - 45| ≤ 61 / 64 * 45 := by
  obtain ⟨X, x, e, hX, hb⟩ := C83_csr_product Short.rounds (scMat_represents 9)
    (scMat_represents 5) (scMat_represents 1) (big := shBig) shBig_drops (le_refl 0)
    (sc := [(1, 2), (0, 1), (1, 0)]) (by unfold IsSched; decide)
  refine ⟨X, x, e, hX, ?_⟩
  have := hb 0 0 (by decide) (by decide)
  simp [Finset.sum_range_succ, show ((0 : Short).val) = 0 from rfl] at this
  norm_num at this ⊢
  exact this

example : ∃ part : Nat → Short,
    (∀ t, Csr.trace (scMat 8) ([(1, 2), (0, 1), (1, 0)].filter fun e => decide (e.1 = t))
      = .ok (part t)) ∧
    ∀ total, Spec.SumOf part [0, 1] total → |((total.val : Int) : ℝ) - 8| ≤ 9 / 16 * 8 := by
  obtain ⟨part, h1, h2⟩ := C83_csr_trace Short.rounds (scMat_represents 8)
    (sc := [(1, 2), (0, 1), (1, 0)]) (by unfold IsSched; decide) (ts := [0, 1]) (by decide)
    (by decide)
  refine ⟨part, h1, fun total ht => ?_⟩
  have := h2 total ht
  simp [Finset.sum_range_succ, show ((0 : Short).val) = 0 from rfl] at this
  norm_num at this ⊢
  exact this

example : ∃ part : Nat → Short,
    (∀ t, Csr.sumSquares (scMat 8) ([(1, 2), (0, 1), (1, 0)].filter fun e => decide (e.1 = t))
      = .ok (part t)) ∧
    ∀ total, Spec.SumOf part [0, 1] total → |((total.val : Int) : ℝ) - 66| ≤ 61 / 64 * 66 := by
  obtain ⟨part, h1, h2⟩ := C83_csr_sum_squares Short.rounds (scMat_represents 8)
    (sc := [(1, 2), (0, 1), (1, 0)]) (by unfold IsSched; decide) (ts := [0, 1]) (by decide)
    (by decide)
  refine ⟨part, h1, fun total ht => ?_⟩
  have := h2 total ht
  simp [Finset.sum_range_succ, scMat, show ((0 : Short).val) = 0 from rfl] at this
  norm_num at this ⊢
  exact this

/-! ## What is not reproducible -/

/-- The diagonal CSR matrix `8 1 1`. -/
def scDiag : Csr Short :=
  ⟨3, 3, ⟨3, fun i => ⟨1, ⟨10, fun _ => if i = 0 then ⟨8⟩ else ⟨1⟩⟩, ⟨10, fun _ => i⟩, 10⟩⟩⟩

/-- **C82**, limit: `bml_trace` combines the rows by a reduction; the result depends on the
schedule. -/
theorem C82_csr_trace_varies : ∃ sc sc' : Sched, IsSched 0 3 sc ∧ IsSched 0 3 sc' ∧
    Csr.trace scDiag sc = .ok ⟨8⟩ ∧ Csr.trace scDiag sc' = .ok ⟨10⟩ :=
  ⟨[(0, 0), (0, 1), (0, 2)], [(0, 2), (0, 1), (0, 0)], by unfold IsSched; decide,
    by unfold IsSched; decide, by decide +kernel, by decide +kernel⟩

/-- **C82**, limit: `bml_transpose_new` stores the entries of a row in the order in which the threads
get its lock.  A later product adds in that order, so its last bits vary from run to run. -/
theorem C82_csr_transpose_new_varies : ∃ ω ω' : Env Short, ω.Valid 3 ∧ ω'.Valid 3 ∧
    outputs (csrValue 3 3) csrAsk
      [(.call (.transposeNew 0 2), ω), (.call (.multiply shBig 1 0 2 1 3), ω),
        (.ask (.element 0 0 3), ω)] (fun v => scMat (if v = 0 then 8 else 1)) = .ok [[⟨8⟩]] ∧
    outputs (csrValue 3 3) csrAsk
      [(.call (.transposeNew 0 2), ω'), (.call (.multiply shBig 1 0 2 1 3), ω'),
        (.ask (.element 0 0 3), ω')] (fun v => scMat (if v = 0 then 8 else 1)) = .ok [[⟨10⟩]] := by
  have hv := shEnv_valid (N := 3) (rows := [(0, 0), (0, 1), (0, 2)]) (by unfold IsSched; decide)
    false ⟨0⟩
  refine ⟨shEnv 3 [(0, 0), (0, 1), (0, 2)] false ⟨0⟩,
    { shEnv 3 [(0, 0), (0, 1), (0, 2)] false ⟨0⟩ with csrSlots := fun A => A.slots.reverse }, hv,
    ⟨hv.rows, hv.rows', hv.rows'', hv.elems, hv.upper, hv.ellSlots, fun A => List.reverse_perm _⟩,
    by decide +kernel, by decide +kernel⟩

end Bml.Props
