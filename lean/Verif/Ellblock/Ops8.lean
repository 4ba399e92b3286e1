import Verif.Ellblock.Ops7

/-!
# Row sums and circles of block-ELLPACK matrices
-/

set_option linter.unusedSectionVars false

namespace Bml

namespace EllB

variable {R K : Type} {E : Prop}

section
variable [AddCommMonoid K] {σ : Type}

/-- A loop nest over a block that adds to one value per row. -/
theorem wp_rowAdd (get : σ → Nat → K) (J : Nat → Nat → σ → Prop) {n m o : Nat}
    (h : Nat → Nat → K) {f : Nat → Nat → σ → Res σ} {s0 : σ}
    (hf : ∀ ii jj s, ii < n → jj < m → J ii jj s → (f ii jj s).wp E (fun s' => J ii (jj + 1) s' ∧
      ∀ k, get s' k = get s k + if k = o + ii then h ii jj else 0))
    (hrow : ∀ ii s, ii < n → J ii m s → J (ii + 1) 0 s) (hJ : J 0 0 s0) :
    (loop2 n m s0 f).wp E (fun s => J n 0 s ∧ ∀ k, get s k = get s0 k +
      if o ≤ k ∧ k < o + n then ∑ jj ∈ Finset.range m, h (k - o) jj else 0) := by
  refine wp_loop2 (fun i j s => J i j s ∧ ∀ k, get s k = get s0 k +
    if o ≤ k ∧ k < o + i then ∑ jj ∈ Finset.range m, h (k - o) jj
    else if k = o + i then ∑ jj ∈ Finset.range j, h i jj else 0) ⟨hJ, ?_⟩ ?_ ?_ ?_
  · intro k
    rw [if_neg (by omega), Finset.range_zero, Finset.sum_empty, ite_self, add_zero]
  · rintro ii jj hi hj s ⟨h1, h2⟩
    refine Res.wp_mono (hf ii jj s hi hj h1) ?_
    rintro s' ⟨h3, h4⟩
    refine ⟨h3, fun k => ?_⟩
    rw [h4, h2]
    by_cases hk : k = o + ii
    · rw [if_neg (by omega), if_pos hk, if_pos hk, if_neg (by omega), if_pos hk,
        Finset.sum_range_succ, add_assoc]
    · rw [if_neg hk, if_neg hk, if_neg hk, add_zero]
  · rintro ii s hi ⟨h1, h2⟩
    refine ⟨hrow ii s hi h1, fun k => ?_⟩
    rw [h2]
    by_cases hk : k = o + ii
    · rw [if_neg (by omega), if_pos hk, if_pos (by omega), show k - o = ii by omega]
    · rw [if_neg hk, Finset.range_zero, Finset.sum_empty, ite_self]
      by_cases hk' : o ≤ k ∧ k < o + ii
      · rw [if_pos hk', if_pos (by omega)]
      · rw [if_neg hk', if_neg (by omega)]
  · rintro s ⟨h1, h2⟩
    refine ⟨h1, fun k => ?_⟩
    rw [h2, Finset.range_zero, Finset.sum_empty, ite_self]

/-- A loop over a list that adds. -/
theorem wp_listAdd {ι : Type} (get : σ → Nat → K) (J : List ι → σ → Prop) (H : ι → Nat → K)
    {f : ι → σ → Res σ} : ∀ (l : List ι) (s0 : σ)
    (hf : ∀ x l' s, x ∈ l → (∃ d, l = d ++ x :: l') → J (x :: l') s →
      (f x s).wp E (fun s' => J l' s' ∧ ∀ k, get s' k = get s k + H x k)), J l s0 →
    (forList l s0 f).wp E (fun s => J [] s ∧ ∀ k, get s k = get s0 k + (l.map (H · k)).sum) := by
  intro l
  induction l with
  | nil =>
    intro s0 _ hJ
    exact ⟨hJ, fun k => by simp⟩
  | cons x l ih =>
    intro s0 hf hJ
    rw [forList_cons, Res.wp_bind]
    refine Res.wp_mono (hf x l s0 (by simp) ⟨[], rfl⟩ hJ) ?_
    rintro s ⟨h1, h2⟩
    refine Res.wp_mono (ih s ?_ h1) ?_
    · rintro y l' s' hy ⟨d, rfl⟩ hJ'
      exact hf y l' s' (by simp) ⟨x :: d, rfl⟩ hJ'
    · rintro s' ⟨h3, h4⟩
      refine ⟨h3, fun k => ?_⟩
      rw [h4, h2, List.map_cons, List.sum_cons, add_assoc]

end

section
variable [CommRing R] [Field K] [LinearOrder K] {A : EllB R} {L : Nat → BRow R} {N : Nat}
  {a : Spec.Mat R}

/-- The sum that a loop over a block row adds up, at one row of the matrix. -/
theorem Rows.rowSum {S : Type} [AddCommMonoid S] (h : A.Rows N L a) {ib : Nat} (hib : ib < A.NB)
    (g : Nat → Nat → R → S) (hg : ∀ i j, g i j 0 = 0) (k : Nat) :
    ((L ib).map fun p => if off A.bsize.get ib ≤ k ∧ k < off A.bsize.get ib + A.bsize.get ib then
      ∑ jj ∈ Finset.range (A.bsize.get p.1), g k (off A.bsize.get p.1 + jj)
        (p.2.get ((k - off A.bsize.get ib) * A.bsize.get p.1 + jj)) else 0).sum =
      if off A.bsize.get ib ≤ k ∧ k < off A.bsize.get (ib + 1) then
        ∑ j ∈ Finset.range N, g k j (a k j) else 0 := by
  rw [off_succ]
  by_cases hk : off A.bsize.get ib ≤ k ∧ k < off A.bsize.get ib + A.bsize.get ib
  · simp only [if_pos hk]
    have := h.sum_row hib (ii := k - off A.bsize.get ib) (by omega) (g k) (hg k)
    rw [this, show off A.bsize.get ib + (k - off A.bsize.get ib) = k by omega]
  · simp only [if_neg hk]
    simp

theorem radius_eq {N i : Nat} (hi : i < N) (absv : R → K) (a : Spec.Mat R) :
    Spec.radius absv N a i = ∑ j ∈ Finset.range N, if i = j then 0 else absv (a i j) := by
  unfold Spec.radius
  rw [Finset.sum_filter]
  refine Finset.sum_congr rfl fun j _ => ?_
  by_cases hj : i = j
  · subst hj; simp
  · simp [hj, Ne.symm hj]

theorem Rows.wp_accumulateOffdiag (h : A.Rows N L a) (absv : R → K) (h0 : absv 0 = 0)
    (incl : Bool) :
    (A.accumulateOffdiag absv incl).wp E (fun out => out.size = N ∧ ∀ i, i < N →
      out.get i = Spec.radius absv N a i + if incl then absv (a i i) else 0) := by
  let g : Nat → Nat → R → K := fun i j v => if i ≠ j ∨ incl = true then absv v else 0
  unfold accumulateOffdiag
  rw [Res.wp_bind]
  refine wp_loop' (fun n (s : Arr K × Nat) => s.2 = off A.bsize.get n ∧ s.1.size = N ∧
    ∀ k, s.1.get k = if k < off A.bsize.get n then
      ∑ j ∈ Finset.range N, g k j (a k j) else 0) ⟨rfl, h.dim, ?_⟩ ?_ ?_
  · intro k; rw [off_zero]; simp
  · rintro ib hib ⟨out, o⟩ ⟨h1, h2, h3⟩
    simp only at h1 h2 h3
    subst h1
    have hlt : off A.bsize.get ib + A.bsize.get ib ≤ N := by
      rw [← off_succ, ← h.N_eq]; exact off_mono _ hib
    rw [Res.wp_bind]
    simp only
    rw [h.is.eachIdx_eq hib out _ (fun p out => loop2 (A.bsize.get ib) (A.bsize.get p.1) out
      fun ii jj out => do
        let v ← p.2.read (ROWMAJOR ii jj (A.bsize.get ib) (A.bsize.get p.1))
        if (ib ≠ p.1 ∨ ii ≠ jj) ∨ incl = true then do
          let x ← out.read (off A.bsize.get ib + ii)
          out.write (off A.bsize.get ib + ii) (x + absv v)
        else pure out)]
    · refine Res.wp_mono (wp_listAdd (fun out : Arr K => out.get) (fun _ out => out.size = N)
        (fun p k => if off A.bsize.get ib ≤ k ∧ k < off A.bsize.get ib + A.bsize.get ib then
          ∑ jj ∈ Finset.range (A.bsize.get p.1), g k (off A.bsize.get p.1 + jj)
            (p.2.get ((k - off A.bsize.get ib) * A.bsize.get p.1 + jj)) else 0)
        (L ib) out ?_ h2) ?_
      · intro p _ out1 hp _ hsz
        have hpb := (h.good ib hib).lt p hp
        refine Res.wp_mono (wp_rowAdd (fun out : Arr K => out.get)
          (fun _ _ out => out.size = N) (o := off A.bsize.get ib)
          (fun ii jj => g (off A.bsize.get ib + ii) (off A.bsize.get p.1 + jj)
            (p.2.get (ii * A.bsize.get p.1 + jj))) ?_ (fun _ _ _ h => h) hsz) ?_
        · intro ii jj o2 hii hjj hsz2
          have hk : off A.bsize.get ib + ii < o2.size := by omega
          simp only [ROWMAJOR]
          rw [h.read_eq hib hp hii hjj, Res.bind_ok]
          have hiff : ((ib ≠ p.1 ∨ ii ≠ jj) ∨ incl = true) ↔
              (off A.bsize.get ib + ii ≠ off A.bsize.get p.1 + jj ∨ incl = true) := by
            constructor
            · rintro (h' | h')
              · left
                intro he
                obtain ⟨e1, e2⟩ := off_inj hii hjj he
                rcases h' with h' | h'
                · exact h' e1
                · exact h' e2
              · exact Or.inr h'
            · rintro (h' | h')
              · left
                by_contra hc
                push Not at hc
                exact h' (by rw [hc.1, hc.2])
              · exact Or.inr h'
          by_cases hc : (ib ≠ p.1 ∨ ii ≠ jj) ∨ incl = true
          · rw [if_pos hc, Arr.read_ok hk, Res.bind_ok, Arr.wp_write]
            refine ⟨hk, hsz2, fun k => ?_⟩
            simp only
            by_cases he : k = off A.bsize.get ib + ii
            · rw [he, upd_same, if_pos rfl]
              simp only [g]
              rw [if_pos (hiff.1 hc)]
            · rw [upd_ne _ _ he, if_neg he, add_zero]
          · rw [if_neg hc, Res.pure_eq, Res.wp_ok]
            refine ⟨hsz2, fun k => ?_⟩
            have : g (off A.bsize.get ib + ii) (off A.bsize.get p.1 + jj)
                (p.2.get (ii * A.bsize.get p.1 + jj)) = 0 := by
              simp only [g]
              rw [if_neg (fun hh => hc (hiff.2 hh))]
            rw [this, ite_self, add_zero]
        · rintro o2 ⟨g1, g2⟩
          refine ⟨g1, fun k => ?_⟩
          rw [g2 k]
          congr 1
          by_cases hk : off A.bsize.get ib ≤ k ∧ k < off A.bsize.get ib + A.bsize.get ib
          · rw [if_pos hk, if_pos hk]
            rw [show off A.bsize.get ib + (k - off A.bsize.get ib) = k by omega]
          · rw [if_neg hk, if_neg hk]
      · rintro o2 ⟨g1, g2⟩
        rw [h.is.bsize_eq hib, Res.bind_ok, Res.pure_eq, Res.wp_ok]
        refine ⟨(off_succ _ _).symm, g1, fun k => ?_⟩
        simp only
        rw [g2 k, h3 k, h.rowSum hib g (fun i j => by simp only [g]; rw [h0, ite_self])]
        have := off_mono A.bsize.get (show ib ≤ ib + 1 by omega)
        by_cases c1 : k < off A.bsize.get ib
        · rw [if_pos c1, if_neg (by omega), if_pos (by omega), add_zero]
        · rw [if_neg c1, zero_add]
          by_cases c2 : k < off A.bsize.get (ib + 1)
          · rw [if_pos c2, if_pos (by omega)]
          · rw [if_neg c2, if_neg (by omega)]
    · intro jp jb b s hs
      have hjb := (h.good ib hib).lt _ (List.mem_of_getElem? hs)
      rw [h.is.block_eq hib hs, Res.bind_ok, h.is.bsize_eq hib, Res.bind_ok, h.is.bsize_eq hjb,
        Res.bind_ok]
  · rintro ⟨out, o⟩ ⟨-, h2, h3⟩
    rw [Res.pure_eq, Res.wp_ok]
    refine ⟨h2, fun i hi => ?_⟩
    simp only at h3 ⊢
    rw [h3 i, h.N_eq, if_pos hi, radius_eq hi]
    have : (if incl = true then absv (a i i) else 0) =
        ∑ j ∈ Finset.range N, if i = j then (if incl = true then absv (a i j) else 0) else 0 := by
      rw [Finset.sum_ite_eq]; simp [hi]
    rw [this, ← Finset.sum_add_distrib]
    refine Finset.sum_congr rfl fun j _ => ?_
    simp only [g]
    by_cases hj : i = j
    · subst hj; cases incl <;> simp
    · simp [hj]

theorem Rows.wp_gershRows (h : A.Rows N L a) (absv : R → K) (h0 : absv 0 = 0) :
    (A.gershRows absv).wp E (fun dr => dr.1.size = N ∧ dr.2.size = N ∧ ∀ i, i < N →
      dr.1.get i = a i i ∧ dr.2.get i = Spec.radius absv N a i) := by
  let g : Nat → Nat → R → R × K := fun i j v => if i = j then (v, 0) else (0, absv v)
  have hg : ∀ i j, g i j 0 = 0 := by
    intro i j
    simp only [g, h0]
    split <;> rfl
  unfold gershRows
  rw [Res.wp_bind]
  refine wp_loop' (fun n (s : (Arr R × Arr K) × Nat) => s.2 = off A.bsize.get n ∧
    (s.1.1.size = N ∧ s.1.2.size = N) ∧ ∀ k, (s.1.1.get k, s.1.2.get k) =
      if k < off A.bsize.get n then ∑ j ∈ Finset.range N, g k j (a k j) else 0)
    ⟨rfl, ⟨h.dim, h.dim⟩, ?_⟩ ?_ ?_
  · intro k; rw [off_zero]; simp
  · rintro ib hib ⟨dr, o⟩ ⟨h1, h2, h3⟩
    simp only at h1 h2 h3
    subst h1
    have hlt : off A.bsize.get ib + A.bsize.get ib ≤ N := by
      rw [← off_succ, ← h.N_eq]; exact off_mono _ hib
    rw [Res.wp_bind]
    simp only
    rw [h.is.eachIdx_eq hib dr _ (fun p dr => loop2 (A.bsize.get ib) (A.bsize.get p.1) dr
      fun ii jj dr => do
        let v ← p.2.read (ROWMAJOR ii jj (A.bsize.get ib) (A.bsize.get p.1))
        if ib = p.1 ∧ ii = jj then do
          let d ← dr.1.write (off A.bsize.get ib + ii) v
          pure (d, dr.2)
        else do
          let x ← dr.2.read (off A.bsize.get ib + ii)
          let r ← dr.2.write (off A.bsize.get ib + ii) (x + absv v)
          pure (dr.1, r))]
    · refine Res.wp_mono (wp_listAdd (fun (dr : Arr R × Arr K) k => (dr.1.get k, dr.2.get k))
        (fun l dr => (dr.1.size = N ∧ dr.2.size = N) ∧ (ib ∈ l.map Prod.fst → ∀ ii,
          ii < A.bsize.get ib → dr.1.get (off A.bsize.get ib + ii) = 0))
        (fun p k => if off A.bsize.get ib ≤ k ∧ k < off A.bsize.get ib + A.bsize.get ib then
          ∑ jj ∈ Finset.range (A.bsize.get p.1), g k (off A.bsize.get p.1 + jj)
            (p.2.get ((k - off A.bsize.get ib) * A.bsize.get p.1 + jj)) else 0)
        (L ib) dr ?_ ⟨h2, ?_⟩) ?_
      · rintro p l' dr1 hp ⟨dn, hdn⟩ ⟨hsz, hz⟩
        have hpb := (h.good ib hib).lt p hp
        have hnot : ib = p.1 → ib ∉ l'.map Prod.fst := by
          have hn := (h.good ib hib).nodup
          rw [hdn, List.map_append, List.nodup_append, List.map_cons, List.nodup_cons] at hn
          intro he; rw [he]; exact hn.2.1.1
        refine Res.wp_mono (wp_rowAdd (fun (dr : Arr R × Arr K) k => (dr.1.get k, dr.2.get k))
          (fun i j dr => (dr.1.size = N ∧ dr.2.size = N) ∧
            (ib = p.1 → ∀ ii, ii < A.bsize.get ib → (i < ii ∨ (i = ii ∧ j ≤ ii)) →
              dr.1.get (off A.bsize.get ib + ii) = 0) ∧
            (ib ≠ p.1 → ib ∈ l'.map Prod.fst → ∀ ii, ii < A.bsize.get ib →
              dr.1.get (off A.bsize.get ib + ii) = 0)) (o := off A.bsize.get ib)
          (fun ii jj => g (off A.bsize.get ib + ii) (off A.bsize.get p.1 + jj)
            (p.2.get (ii * A.bsize.get p.1 + jj))) ?_ ?_ ⟨hsz, ?_, ?_⟩) ?_
        · rintro ii jj dr2 hii hjj ⟨hsz2, hz2, hz3⟩
          have hk : off A.bsize.get ib + ii < N := by omega
          simp only [ROWMAJOR]
          rw [h.read_eq hib hp hii hjj, Res.bind_ok]
          by_cases hc : ib = p.1 ∧ ii = jj
          · rw [if_pos hc, Arr.write_ok _ (by rw [hsz2.1]; exact hk), Res.bind_ok, Res.pure_eq,
              Res.wp_ok]
            refine ⟨⟨hsz2, fun he ii' hii' hc' => ?_, fun hne => absurd hc.1 hne⟩, fun k => ?_⟩
            · simp only
              rw [upd_ne _ _ (by omega)]
              exact hz2 he ii' hii' (by omega)
            · simp only
              by_cases he : k = off A.bsize.get ib + ii
              · subst he
                have hz' := hz2 hc.1 ii hii (Or.inr ⟨rfl, by omega⟩)
                rw [upd_same, if_pos rfl, hz']
                simp only [g]
                rw [if_pos (by rw [← hc.1, hc.2])]
                simp
              · rw [upd_ne _ _ he, if_neg he, add_zero]
          · have hne : off A.bsize.get ib + ii ≠ off A.bsize.get p.1 + jj :=
              fun he => hc (off_inj hii hjj he)
            rw [if_neg hc, Arr.read_ok (by rw [hsz2.2]; exact hk), Res.bind_ok,
              Arr.write_ok _ (by rw [hsz2.2]; exact hk), Res.bind_ok, Res.pure_eq, Res.wp_ok]
            refine ⟨⟨hsz2, fun he ii' hii' hc' => hz2 he ii' hii' (by omega), hz3⟩, fun k => ?_⟩
            simp only
            by_cases he : k = off A.bsize.get ib + ii
            · subst he
              rw [upd_same, if_pos rfl]
              simp only [g]
              rw [if_neg hne]
              simp
            · rw [upd_ne _ _ he, if_neg he, add_zero]
        · rintro ii dr2 hii ⟨c1, c2, c3⟩
          exact ⟨c1, fun he ii' h' hc' => c2 he ii' h' (by omega), c3⟩
        · intro he ii hii _
          exact hz (by simp [he]) ii hii
        · intro _ hm
          exact hz (by rw [List.map_cons]; exact List.mem_cons_of_mem _ hm)
        · rintro o2 ⟨⟨c1, c2, c3⟩, g2⟩
          refine ⟨⟨c1, fun hm => ?_⟩, fun k => ?_⟩
          · by_cases he : ib = p.1
            · exact absurd hm (hnot he)
            · exact c3 he hm
          · rw [g2 k]
            congr 1
            by_cases hk : off A.bsize.get ib ≤ k ∧ k < off A.bsize.get ib + A.bsize.get ib
            · rw [if_pos hk, if_pos hk]
              rw [show off A.bsize.get ib + (k - off A.bsize.get ib) = k by omega]
            · rw [if_neg hk, if_neg hk]
      · intro _ ii hii
        have := h3 (off A.bsize.get ib + ii)
        rw [if_neg (by omega)] at this
        exact (Prod.ext_iff.1 this).1
      · rintro o2 ⟨⟨g1, -⟩, g2⟩
        rw [h.is.bsize_eq hib, Res.bind_ok, Res.pure_eq, Res.wp_ok]
        refine ⟨(off_succ _ _).symm, g1, fun k => ?_⟩
        simp only at g2 ⊢
        rw [g2 k, h3 k, h.rowSum hib g hg]
        have := off_mono A.bsize.get (show ib ≤ ib + 1 by omega)
        by_cases c1 : k < off A.bsize.get ib
        · rw [if_pos c1, if_neg (by omega), if_pos (by omega), add_zero]
        · rw [if_neg c1, zero_add]
          by_cases c2 : k < off A.bsize.get (ib + 1)
          · rw [if_pos c2, if_pos (by omega)]
          · rw [if_neg c2, if_neg (by omega)]
    · intro jp jb b s hs
      have hjb := (h.good ib hib).lt _ (List.mem_of_getElem? hs)
      rw [h.is.block_eq hib hs, Res.bind_ok, h.is.bsize_eq hib, Res.bind_ok, h.is.bsize_eq hjb,
        Res.bind_ok]
  · rintro ⟨dr, o⟩ ⟨-, h2, h3⟩
    rw [Res.pure_eq, Res.wp_ok]
    refine ⟨h2.1, h2.2, fun i hi => ?_⟩
    simp only at h3 ⊢
    have := h3 i
    rw [h.N_eq, if_pos hi] at this
    obtain ⟨e1, e2⟩ := Prod.ext_iff.1 this
    rw [Prod.fst_sum] at e1
    rw [Prod.snd_sum] at e2
    simp only at e1 e2
    rw [e1, e2, radius_eq hi]
    constructor
    · rw [Finset.sum_eq_single i]
      · simp only [g, if_pos]
      · intro j _ hj
        simp only [g]
        rw [if_neg (Ne.symm hj)]
      · intro hn; simp at hn; omega
    · refine Finset.sum_congr rfl fun j _ => ?_
      simp only [g]
      split <;> rfl

theorem Rows.wp_gershgorin (h : A.Rows N L a) (absv re : R → K) (h0 : absv 0 = 0) (top bot : K) :
    (A.gershgorin absv re top bot).wp E (fun e =>
      Ell.IsMinOf top 0 N (fun i => re (a i i) - Spec.radius absv N a i) e.1 ∧
      Ell.IsMaxOf bot 0 N (fun i => re (a i i) + Spec.radius absv N a i) e.2) := by
  unfold gershgorin
  rw [Res.wp_bind]
  refine Res.wp_mono (h.wp_gershRows absv h0) ?_
  rintro ⟨d, r⟩ ⟨hd, hr, hdr⟩
  simp only at hd hr hdr ⊢
  rw [h.dim]
  refine wp_loop' (fun n (e : K × K) =>
      Ell.IsMinOf top 0 n (fun i => re (a i i) - Spec.radius absv N a i) e.1 ∧
      Ell.IsMaxOf bot 0 n (fun i => re (a i i) + Spec.radius absv N a i) e.2) ?_ ?_ (fun _ h => h)
  · exact ⟨⟨le_refl _, fun i _ _ => by omega, Or.inl rfl⟩, ⟨le_refl _, fun i _ _ => by omega, Or.inl rfl⟩⟩
  · rintro n hn2 ⟨mn, mx⟩ ⟨⟨a1, a2, a3⟩, ⟨b1, b2, b3⟩⟩
    rw [Arr.read_ok (by omega), Res.bind_ok, Arr.read_ok (by omega), Res.bind_ok, (hdr n hn2).1,
      (hdr n hn2).2, Res.pure_eq, Res.wp_ok]
    simp only at a1 a2 a3 b1 b2 b3 ⊢
    constructor
    · split
      · next hlt =>
        refine ⟨le_trans (le_of_lt hlt) a1, fun i hi1 hi2 => ?_, Or.inr ⟨n, by omega, by omega, rfl⟩⟩
        by_cases he : i = n
        · subst he; exact le_refl _
        · exact le_trans (le_of_lt hlt) (a2 i hi1 (by omega))
      · next hlt =>
        refine ⟨a1, fun i hi1 hi2 => ?_, ?_⟩
        · by_cases he : i = n
          · subst he; exact not_lt.1 hlt
          · exact a2 i hi1 (by omega)
        · rcases a3 with h | ⟨i, h1, h2, h3⟩
          · exact Or.inl h
          · exact Or.inr ⟨i, h1, by omega, h3⟩
    · split
      · next hlt =>
        refine ⟨le_trans b1 (le_of_lt hlt), fun i hi1 hi2 => ?_, Or.inr ⟨n, by omega, by omega, rfl⟩⟩
        by_cases he : i = n
        · subst he; exact le_refl _
        · exact le_trans (b2 i hi1 (by omega)) (le_of_lt hlt)
      · next hlt =>
        refine ⟨b1, fun i hi1 hi2 => ?_, ?_⟩
        · by_cases he : i = n
          · subst he; exact not_lt.1 hlt
          · exact b2 i hi1 (by omega)
        · rcases b3 with h | ⟨i, h1, h2, h3⟩
          · exact Or.inl h
          · exact Or.inr ⟨i, h1, by omega, h3⟩

end

end EllB

end Bml
