import Verif.Ellpack.MatrixMarket
import Verif.Ellblock.Hist

/-!
# Matrix files: block-ELLPACK
-/

set_option linter.unusedSectionVars false

namespace Bml

variable {R : Type}

open Classical in
/-- If all entries agree with `a`, the writes leave `a` where there is an entry. -/
theorem Mm.foldl_agree {es : List (Nat × Nat × R)} {a : Spec.Mat R}
    (h : ∀ e ∈ es, e.2.2 = a e.1 e.2.1) (z : Spec.Mat R) (i j : Nat) :
    es.foldl (fun a e => Spec.set a e.1 e.2.1 e.2.2) z i j
      = if ∃ v, (i, j, v) ∈ es then a i j else z i j := by
  induction es generalizing z with
  | nil => simp
  | cons e es ih =>
    obtain ⟨i0, j0, v0⟩ := e
    rw [List.foldl_cons, ih (fun e he => h e (by simp [he]))]
    have h0 := h (i0, j0, v0) (by simp)
    simp only at h0
    by_cases h1 : ∃ v, (i, j, v) ∈ es
    · rw [if_pos h1, if_pos]
      obtain ⟨v, hv⟩ := h1
      exact ⟨v, by simp [hv]⟩
    · rw [if_neg h1]
      by_cases h2 : i = i0 ∧ j = j0
      · obtain ⟨rfl, rfl⟩ := h2
        rw [if_pos ⟨v0, by simp⟩]
        simp [Spec.set, h0]
      · rw [if_neg]
        · simp [Spec.set, h2]
        · rintro ⟨v, hv⟩
          rcases List.mem_cons.1 hv with hv | hv
          · injection hv with e1 e2
            injection e2 with e2 e3
            exact h2 ⟨e1, e2⟩
          · exact h1 ⟨v, hv⟩

theorem loop_ok_mono {σ : Type} {f g : Nat → σ → Res σ}
    (h : ∀ k s s', f k s = .ok s' → g k s = .ok s') :
    ∀ (n : Nat) (s s' : σ), loop n s f = .ok s' → loop n s g = .ok s' := by
  intro n
  induction n with
  | zero => intro s s' e; exact e
  | succ n ih =>
    intro s s' e
    rw [loop_succ] at e ⊢
    cases hl : loop n s f with
    | ok t =>
      rw [hl, Res.bind_ok] at e
      rw [ih s t hl, Res.bind_ok]
      exact h n t s' e
    | error => rw [hl] at e; exact absurd e (by simp [bind, Res.bind])
    | ub => rw [hl] at e; exact absurd e (by simp [bind, Res.bind])

theorem forList_ok_mono {σ ι : Type} {f g : ι → σ → Res σ} :
    ∀ (l : List ι) (s s' : σ), (∀ i ∈ l, ∀ s s', f i s = .ok s' → g i s = .ok s') →
      forList l s f = .ok s' → forList l s g = .ok s' := by
  intro l
  induction l with
  | nil => intro s s' _ e; exact e
  | cons i l ih =>
    intro s s' h e
    rw [forList_cons] at e ⊢
    cases hl : f i s with
    | ok t =>
      rw [hl, Res.bind_ok] at e
      rw [h i (by simp) s t hl, Res.bind_ok]
      exact ih t s' (fun i hi => h i (by simp [hi])) e
    | error => rw [hl] at e; exact absurd e (by simp [bind, Res.bind])
    | ub => rw [hl] at e; exact absurd e (by simp [bind, Res.bind])

namespace EllB

/-- Storing a value read from a file, lines 104-132: like `bml_set_element`, but without the check
that the cell of the new block is NULL. -/
def mmPut [Zero R] (A : EllB R) (ib ii jb jj : Nat) (v : R) : Res (EllB R) := do
  let bi ← A.bsize.read ib
  let bj ← A.bsize.read jb
  let (A, found) ← A.writeMatching ib jb (ROWMAJOR ii jj bi bj) v false
  if found then pure A
  else do
    let n ← A.nnzb.read ib
    if n < A.MB then do
      let ind := ROWMAJOR ib n A.NB A.MB
      let A ← A.setIndex ind jb
      let A ← A.setNnzb ib (n + 1)
      let b ← unitBlock (bi * bj) (ROWMAJOR ii jj bi bj) v
      A.alloc ind b
    else .error

/-- The mirrored entry of a file declared symmetric, lines 137-159.  If the block is not there,
its index is written to a cell of the first block rows (`A_indexb[A_nnzb[jb]]`, not
`A_indexb[ind]`), and no block is allocated. -/
def mmMirror [Zero R] (A : EllB R) (ib ii jb jj : Nat) (v : R) : Res (EllB R) := do
  let bi ← A.bsize.read ib
  let bj ← A.bsize.read jb
  let (A, found) ← A.writeMatching jb ib (ROWMAJOR jj ii bj bi) v false
  if found then pure A
  else do
    let n ← A.nnzb.read jb
    let A ← A.setIndex n ib
    let ind := ROWMAJOR jb n A.NB A.MB
    let A ← A.setNnzb jb (n + 1)
    let b ← A.block ind
    let b ← b.write (ROWMAJOR jj ii bj bi) v
    A.putBlock ind b

/-- `bml_read_bml_matrix_ellblock` (`bml_utilities_ellblock_typed.c` 24-164).  The mirrored entry
is stored when the positions *inside the blocks* differ (line 135).  A negative index is `ub`
here. -/
def readMm [Zero R] (f : Mm.Fmt R) (A : EllB R) (file : List Char) : Res (EllB R) := do
  let b0 ← A.bsize.read 0
  if b0 < 1000000 then
    Mm.readWith f file A fun sym i j v A =>
      if i < 0 ∨ j < 0 then .ub
      else do
        let (ib, ii) ← A.find i.toNat
        let (jb, jj) ← A.find j.toNat
        let A ← A.mmPut ib ii jb jj v
        if sym ∧ jj ≠ ii then A.mmMirror ib ii jb jj v else pure A
  else .error

/-- `bml_write_bml_matrix_ellblock` (`bml_utilities_ellblock_typed.c` 173-258), on the rank that
prints: all elements of all stored blocks. -/
def writeMm (f : Mm.Fmt R) (A : EllB R) : Res (List Char) := do
  let msum ← loop A.NB 0 fun ib m =>
    A.eachIdx ib m fun _ jb m => do
      let bi ← A.bsize.read ib
      let bj ← A.bsize.read jb
      pure (m + bi * bj)
  let off ← offsets A.bsize A.NB
  loop A.NB (Mm.headerText f.kind "general" ++ Mm.sizeText A.N msum) fun ib out =>
    A.eachIdx ib out fun ind jb out => do
      let b ← A.block ind
      let bi ← A.bsize.read ib
      let bj ← A.bsize.read jb
      loop2 bi bj out fun ii jj out => do
        let oi ← off.read ib
        let oj ← off.read jb
        let v ← b.read (ROWMAJOR ii jj bi bj)
        pure (out ++ Mm.lineText f (oi + ii) (oj + jj) v)

/-- The entries of one block. -/
def blockEntries (bs : Nat → Nat) (ib : Nat) (p : Nat × Arr R) : List (Nat × Nat × R) :=
  (List.range (bs ib)).flatMap fun ii => (List.range (bs p.1)).map fun jj =>
    (off bs ib + ii, off bs p.1 + jj, p.2.get (ii * bs p.1 + jj))

/-- The entries written for the block rows `L`. -/
def fileEntries (bs : Nat → Nat) (NB : Nat) (L : Nat → BRow R) : List (Nat × Nat × R) :=
  (List.range NB).flatMap fun ib => (L ib).flatMap (blockEntries bs ib)

theorem mem_fileEntries {bs : Nat → Nat} {NB : Nat} {L : Nat → BRow R} {e : Nat × Nat × R} :
    e ∈ fileEntries bs NB L ↔ ∃ ib jb b ii jj, ib < NB ∧ (jb, b) ∈ L ib ∧ ii < bs ib ∧ jj < bs jb ∧
      e = (off bs ib + ii, off bs jb + jj, b.get (ii * bs jb + jj)) := by
  simp only [fileEntries, blockEntries, List.mem_flatMap, List.mem_range, List.mem_map]
  constructor
  · rintro ⟨ib, h1, ⟨jb, b⟩, h2, ii, h3, jj, h4, rfl⟩
    exact ⟨ib, jb, b, ii, jj, h1, h2, h3, h4, rfl⟩
  · rintro ⟨ib, jb, b, ii, jj, h1, h2, h3, h4, rfl⟩
    exact ⟨ib, h1, (jb, b), h2, ii, h3, jj, h4, rfl⟩

theorem length_blockEntries (bs : Nat → Nat) (ib : Nat) (p : Nat × Arr R) :
    (blockEntries bs ib p).length = bs ib * bs p.1 := by
  simp [blockEntries]

section
variable [AddCommMonoid R] {A : EllB R} {L : Nat → BRow R} {N : Nat} {a : Spec.Mat R}

theorem forList_pure {σ ι : Type} (l : List ι) (s : σ) (g : ι → σ → σ) :
    (forList l s fun i s => (.ok (g i s) : Res σ)) = .ok (l.foldl (fun s i => g i s) s) := by
  induction l generalizing s with
  | nil => rfl
  | cons i l ih => rw [forList_cons, Res.bind_ok, ih]; rfl

theorem loop_list {σ : Type} {n : Nat} {s : σ} {f : Nat → σ → Res σ} {g : Nat → σ → Res σ}
    (h : ∀ k s, k < n → f k s = g k s) : loop n s f = forList (List.range n) s g := by
  have := loop_eq_forList (List.range n) s f g (fun k x s hk => by
    obtain ⟨h1, h2⟩ := List.getElem?_eq_some_iff.1 hk
    simp at h1 h2
    subst h2
    exact h k s h1)
  rwa [List.length_range] at this

theorem foldl_text {ι : Type} (l : List ι) (t : ι → List Char) (out : List Char) :
    l.foldl (fun out x => out ++ t x) out = out ++ l.flatMap t := by
  induction l generalizing out with
  | nil => simp
  | cons x l ih => rw [List.foldl_cons, ih, List.flatMap_cons, List.append_assoc]

theorem forList_congr {σ ι : Type} {l : List ι} {s : σ} {f g : ι → σ → Res σ}
    (h : ∀ i ∈ l, ∀ s, f i s = g i s) : forList l s f = forList l s g := by
  induction l generalizing s with
  | nil => rfl
  | cons i l ih =>
    rw [forList_cons, forList_cons, h i (by simp)]
    congr 1
    funext s
    exact ih (fun i hi => h i (by simp [hi]))

theorem Rows.writeMm_eq (h : A.Rows N L a) (hN : 0 < N) (f : Mm.Fmt R) :
    A.writeMm f = .ok (Mm.fileText f "general" N (fileEntries A.bsize.get A.NB L)) := by
  have hNB := h.NB_pos hN
  obtain ⟨o, ho, ho1, ho2⟩ := Res.wp_exists (wp_offsets (E := False) (bs := A.bsize) (NB := A.NB)
    (by rw [h.is.bs_size]) hNB)
  have hcnt : (loop A.NB 0 fun ib m =>
      A.eachIdx ib m fun _ jb m => do
        let bi ← A.bsize.read ib
        let bj ← A.bsize.read jb
        pure (m + bi * bj)) = .ok (fileEntries A.bsize.get A.NB L).length := by
    rw [loop_list (g := fun ib m => .ok (m + ((L ib).flatMap
      (blockEntries A.bsize.get ib)).length)), forList_pure]
    · congr 1
      unfold fileEntries
      have : ∀ (l : List Nat) (m : Nat), l.foldl (fun s i => s + ((L i).flatMap
          (blockEntries A.bsize.get i)).length) m = m + (l.flatMap fun ib =>
            (L ib).flatMap (blockEntries A.bsize.get ib)).length := by
        intro l
        induction l with
        | nil => intro m; rfl
        | cons x l ih => intro m; rw [List.foldl_cons, ih, List.flatMap_cons, List.length_append]; omega
      rw [this]; omega
    · intro ib m hib
      rw [h.is.eachIdx_eq hib _ _ (fun p m => .ok (m + A.bsize.get ib * A.bsize.get p.1)) (by
        intro jp jb b s hs
        rw [h.is.bsize_eq hib, Res.bind_ok,
          h.is.bsize_eq ((h.good ib hib).lt (jb, b) (List.mem_of_getElem? hs)), Res.bind_ok]
        rfl), forList_pure]
      congr 1
      induction L ib generalizing m with
      | nil => rfl
      | cons p l ih =>
        rw [List.foldl_cons, ih, List.flatMap_cons, List.length_append, length_blockEntries]
        omega
  unfold writeMm
  rw [hcnt, Res.bind_ok, ho, Res.bind_ok]
  rw [loop_list (g := fun ib out => .ok (out ++ (L ib).flatMap fun p =>
    (blockEntries A.bsize.get ib p).flatMap fun e => Mm.lineText f e.1 e.2.1 e.2.2)), forList_pure,
    foldl_text]
  · rw [h.dim]
    unfold Mm.fileText fileEntries
    rw [List.append_assoc, List.flatMap_assoc]
    congr 3
    apply List.flatMap_congr
    intro ib _
    rw [List.flatMap_assoc]
  · intro ib out hib
    have hg := h.good ib hib
    rw [h.is.eachIdx_eq hib _ _ (fun p out => loop2 (A.bsize.get ib) (A.bsize.get p.1) out
      fun ii jj out => do
        let oi ← o.read ib
        let oj ← o.read p.1
        let v ← p.2.read (ROWMAJOR ii jj (A.bsize.get ib) (A.bsize.get p.1))
        pure (out ++ Mm.lineText f (oi + ii) (oj + jj) v)) (by
      intro jp jb b s hs
      rw [h.is.block_eq hib hs, Res.bind_ok, h.is.bsize_eq hib, Res.bind_ok,
        h.is.bsize_eq (hg.lt (jb, b) (List.mem_of_getElem? hs)), Res.bind_ok])]
    rw [forList_congr (g := fun p out => .ok (out ++
      (blockEntries A.bsize.get ib p).flatMap fun e => Mm.lineText f e.1 e.2.1 e.2.2)),
      forList_pure, foldl_text]
    rintro ⟨jb, b⟩ hp out
    have hjb := hg.lt (jb, b) hp
    have hsz := hg.size (jb, b) hp
    simp only at hjb hsz
    unfold loop2
    rw [loop_list (g := fun ii out => .ok (out ++ (List.range (A.bsize.get jb)).flatMap fun jj =>
      Mm.lineText f (off A.bsize.get ib + ii) (off A.bsize.get jb + jj)
        (b.get (ii * A.bsize.get jb + jj)))), forList_pure, foldl_text]
    · unfold blockEntries
      rw [List.flatMap_assoc]
      simp only [List.flatMap_map]
    · intro ii out hii
      rw [loop_list (g := fun jj out => .ok (out ++ Mm.lineText f (off A.bsize.get ib + ii)
        (off A.bsize.get jb + jj) (b.get (ii * A.bsize.get jb + jj)))), forList_pure, foldl_text]
      intro jj out hjj
      beta_reduce
      rw [Arr.read_ok (by omega), Res.bind_ok, Arr.read_ok (by omega), Res.bind_ok,
        ho2 ib hib, ho2 jb hjb]
      simp only [ROWMAJOR]
      rw [Arr.read_ok (Nat.lt_of_lt_of_le (addr_lt hii hjj) hsz), Res.bind_ok]
      rfl

/-- What is written agrees with the matrix. -/
theorem Rows.fileEntries_agree (h : A.Rows N L a) :
    ∀ e ∈ fileEntries A.bsize.get A.NB L, e.2.2 = a e.1 e.2.1 := by
  intro e he
  obtain ⟨ib, jb, b, ii, jj, h1, h2, h3, h4, rfl⟩ := mem_fileEntries.1 he
  have hg := h.good ib h1
  simp only
  rw [← h.den ib jb ii jj h1 (hg.lt _ h2) h3 h4, val_of_mem hg.nodup h2]

/-- What is not written is zero. -/
theorem Rows.fileEntries_zero (h : A.Rows N L a) {i j : Nat} (hi : i < N) (hj : j < N)
    (hno : ¬ ∃ v, (i, j, v) ∈ fileEntries A.bsize.get A.NB L) : a i j = 0 := by
  obtain ⟨ib, ii, h1, h2, rfl⟩ := h.surj hi
  obtain ⟨jb, jj, h3, h4, rfl⟩ := h.surj hj
  rw [← h.den ib jb ii jj h1 h3 h2 h4]
  apply val_of_not_mem
  intro hm
  obtain ⟨⟨c, b⟩, hp, rfl⟩ := List.mem_map.1 hm
  exact hno ⟨_, mem_fileEntries.2 ⟨ib, c, b, ii, jj, h1, hp, h2, h4, rfl⟩⟩

/-- Writes into the block positions `K`, into rows with room for these, with any operation that does
what `bml_set_element` does when that succeeds. -/
theorem setElements_room (op : EllB R → Nat → Nat → R → Res (EllB R))
    (hop : ∀ (Z Z' : EllB R) (LZ : Nat → BRow R) (z : Spec.Mat R) (i j : Nat) (v : R),
      Z.Rows N LZ z → i < N → j < N → Z.setElement i j v = .ok Z' → op Z i j v = .ok Z') (K : Nat → List Nat) (hK : ∀ ib, (K ib).Nodup) {bs : Nat → Nat} {NB MB : Nat}
    (hlen : ∀ ib, ib < NB → (K ib).length ≤ MB) :
    ∀ (ws : List (Nat × Nat × R)) {Z : EllB R} {LZ : Nat → BRow R} {z : Spec.Mat R},
      Z.Rows N LZ z → Z.Clean → Z.NB = NB → Z.MB = MB → Z.bsize.get = bs →
      (∀ ib, ib < NB → ∀ p ∈ LZ ib, p.1 ∈ K ib) →
      (∀ w ∈ ws, ∃ ib ii jb jj, ib < NB ∧ ii < bs ib ∧ jb < NB ∧ jj < bs jb ∧ jb ∈ K ib ∧
        w.1 = off bs ib + ii ∧ w.2.1 = off bs jb + jj) →
      ∃ Z', forList ws Z (fun w Z => op Z w.1 w.2.1 w.2.2) = .ok Z' ∧ Z'.Clean ∧ Same Z Z' ∧
        ∃ L', Z'.Rows N L' (ws.foldl (fun a w => Spec.set a w.1 w.2.1 w.2.2) z) := by
  intro ws
  induction ws with
  | nil => intro Z LZ z h hc _ _ _ _ _; exact ⟨Z, rfl, hc, Same.refl _, LZ, h⟩
  | cons w ws ih =>
    intro Z LZ z h hc eNB eMB ebs hsub hw
    obtain ⟨i, j, v⟩ := w
    obtain ⟨ib, ii, jb, jj, h1, h2, h3, h4, h5, h6, h7⟩ := hw _ List.mem_cons_self
    simp only at h6 h7
    subst h6 h7
    have hib : ib < Z.NB := by rw [eNB]; exact h1
    have hjb : jb < Z.NB := by rw [eNB]; exact h3
    subst ebs
    obtain ⟨Z', e, L', hW⟩ := Res.wp_exists (Res.wp_mono' (E' := False)
      (h.wp_setElement hib hjb h2 h4 v) (by
        rintro ⟨hn, hor⟩
        rcases hor with hf | hf
        · have hnd : (jb :: (LZ ib).map Prod.fst).Nodup :=
            List.nodup_cons.2 ⟨hn, (h.good ib hib).nodup⟩
          have hss : (jb :: (LZ ib).map Prod.fst) ⊆ K ib := by
            intro x hx
            rcases List.mem_cons.1 hx with rfl | hx
            · exact h5
            · obtain ⟨p, hp, rfl⟩ := List.mem_map.1 hx
              exact hsub ib h1 p hp
          have := (List.subperm_of_subset hnd hss).length_le
          rw [List.length_cons, List.length_map] at this
          have := hlen ib h1
          omega
        · exact hf hc) (fun _ h => h))
    obtain ⟨Z'', e', c1, c2, c3⟩ := ih hW.rows (hW.clean hc) (by rw [hW.same.NB, eNB])
      (by rw [hW.same.MB, eMB]) (by rw [hW.same.bsize]) (by
        intro ib' hib' p hp
        by_cases he : ib' = ib
        · subst he
          have : p.1 ∈ (L' ib').map Prod.fst := List.mem_map.2 ⟨p, hp, rfl⟩
          rw [hW.cols] at this
          have hin : p.1 ∈ (LZ ib').map Prod.fst ∨ p.1 = jb := by
            split at this
            · exact Or.inl this
            · simpa using this
          rcases hin with h' | h'
          · obtain ⟨q, hq, hqe⟩ := List.mem_map.1 h'
            rw [← hqe]
            exact hsub ib' h1 q hq
          · rw [h']; exact h5
        · rw [hW.other ib' he] at hp
          exact hsub ib' hib' p hp) (fun w hw' => hw w (by simp [hw']))
    exact ⟨Z'', by rw [forList_cons, hop Z Z' LZ z _ _ v h
      (by rw [← h.N_eq]; exact off_lt hib h2) (by rw [← h.N_eq]; exact off_lt hjb h4) e, Res.bind_ok]; exact e', c1, hW.same.trans c2, c3⟩

theorem _root_.Bml.Res.bind_eq_ok {α β : Type} {x : Res α} {f : α → Res β} {b : β} :
    (x >>= f) = .ok b ↔ ∃ a, x = .ok a ∧ f a = .ok b := by
  cases x with
  | ok a => simp
  | error => simp [bind, Res.bind]
  | ub => simp [bind, Res.bind]

theorem block_of_assert {ind : Nat} {b : Arr R} (h : A.blockAssert ind = .ok b) :
    A.block ind = .ok b := by
  unfold blockAssert at h
  unfold block
  obtain ⟨q, hq, h⟩ := Res.bind_eq_ok.1 h
  rw [hq, Res.bind_ok]
  cases q with
  | none => exact absurd h (by simp)
  | some x => exact h

theorem writeMatching_ok {ib jb k : Nat} {v : R} {r : EllB R × Bool}
    (h : A.writeMatching ib jb k v true = .ok r) : A.writeMatching ib jb k v false = .ok r := by
  unfold writeMatching at h ⊢
  obtain ⟨n, hn, h⟩ := Res.bind_eq_ok.1 h
  rw [hn, Res.bind_ok]
  refine loop_ok_mono ?_ n _ _ h
  intro jp s s' hs
  obtain ⟨c, hc, hs⟩ := Res.bind_eq_ok.1 hs
  rw [hc, Res.bind_ok]
  by_cases he : c = jb
  · rw [if_pos he] at hs ⊢
    simp only [if_true, Bool.false_eq_true, if_false] at hs ⊢
    obtain ⟨b, hb, hs⟩ := Res.bind_eq_ok.1 hs
    rw [block_of_assert hb]
    exact hs
  · rw [if_neg he] at hs ⊢
    exact hs

/-- Storing an entry of a file, at a global position. -/
def mmSet (A : EllB R) (i j : Nat) (v : R) : Res (EllB R) := do
  let (ib, ii) ← A.find i
  let (jb, jj) ← A.find j
  A.mmPut ib ii jb jj v

/-- It does what `bml_set_element` does when that succeeds. -/
theorem Rows.mmSet_eq (h : A.Rows N L a) {i j : Nat} {v : R} {A' : EllB R} (hi : i < N)
    (hj : j < N) (hs : A.setElement i j v = .ok A') : A.mmSet i j v = .ok A' := by
  obtain ⟨ib0, ii0, q1, q2, rfl⟩ := h.surj hi
  obtain ⟨jb, jj, q3, q4, rfl⟩ := h.surj hj
  unfold setElement at hs
  unfold mmSet mmPut
  rw [h.find_eq q1 q2] at hs ⊢
  simp only [Res.bind_ok] at hs ⊢
  rw [h.find_eq q3 q4] at hs ⊢
  simp only [Res.bind_ok] at hs ⊢
  rw [h.is.bsize_eq q1, Res.bind_ok, h.is.bsize_eq q3, Res.bind_ok] at hs ⊢
  simp only [ROWMAJOR] at hs ⊢
  obtain ⟨⟨A1, found⟩, hw, hs⟩ := Res.bind_eq_ok.1 hs
  rw [writeMatching_ok hw, Res.bind_ok]
  simp only at hs ⊢
  cases found with
  | true => exact hs
  | false =>
    simp only [Bool.false_eq_true, if_false] at hs ⊢
    -- nothing was found, so nothing was written
    have hA1 : A1 = A := by
      by_cases hm : jb ∈ (L ib0).map Prod.fst
      · obtain ⟨⟨c, b⟩, hp, rfl⟩ := List.mem_map.1 hm
        obtain ⟨k0, hk0⟩ := List.mem_iff_getElem?.1 hp
        exfalso
        have hsz := (h.good ib0 q1).size _ hp
        simp only at hsz q3 q4
        rw [h.is.writeMatching_some q1 (h.good ib0 q1).nodup hk0
          (Nat.lt_of_lt_of_le (addr_lt q2 q4) hsz) v true] at hw
        injection hw with hw
        injection hw with _ hw
        cases hw
      · rw [h.is.writeMatching_none q1 hm] at hw
        injection hw with hw
        injection hw with hw _
        exact hw.symm
    clear hw
    subst hA1
    obtain ⟨n, hn, hs⟩ := Res.bind_eq_ok.1 hs
    rw [hn, Res.bind_ok]
    rw [h.is.nnzb_eq q1] at hn
    injection hn with hn
    have hle := h.is.le ib0 q1
    by_cases hfull : n = A1.MB
    · rw [if_pos hfull] at hs
      exact absurd hs (by simp)
    · rw [if_neg hfull] at hs
      rw [if_pos (by omega)]
      obtain ⟨q, hq, hs⟩ := Res.bind_eq_ok.1 hs
      cases q with
      | some x => exact absurd hs (by simp)
      | none =>
        simp only at hs
        obtain ⟨b, hb, hs⟩ := Res.bind_eq_ok.1 hs
        obtain ⟨A2, h2, hs⟩ := Res.bind_eq_ok.1 hs
        obtain ⟨A3, h3, hs⟩ := Res.bind_eq_ok.1 hs
        unfold alloc at h2
        unfold setIndex at h3
        unfold setNnzb at hs
        obtain ⟨p, hp, h2⟩ := Res.bind_eq_ok.1 h2
        obtain ⟨x, hx, h3⟩ := Res.bind_eq_ok.1 h3
        obtain ⟨y, hy, hs⟩ := Res.bind_eq_ok.1 hs
        cases h2
        cases h3
        cases hs
        unfold alloc setIndex setNnzb
        rw [hx, Res.bind_ok]
        simp only [pure_bind]
        rw [hy, Res.bind_ok]
        simp only [pure_bind]
        rw [hb, Res.bind_ok, hp]
        rfl

/-- Reading a file that is not declared symmetric. -/
theorem readMm_eq {f : Mm.Fmt R} (hk : Mm.Word f.kind) {sym : String} (hs : Mm.Word sym)
    (hsym : sym ≠ "symmetric") (h0 : 0 < A.bsize.size) (hb : A.bsize.get 0 < 1000000) (n : Nat)
    (es : List (Nat × Nat × R)) (hv : ∀ e ∈ es, f.Exact e.2.2) :
    A.readMm f (Mm.fileText f sym n es) = forList es A fun e A => A.mmSet e.1 e.2.1 e.2.2 := by
  unfold readMm
  rw [Arr.read_ok h0, Res.bind_ok, if_pos hb, Mm.readWith_fileText hk hs n es hv]
  congr 1
  funext e A
  rw [if_neg (by omega)]
  unfold mmSet
  simp only [Int.toNat_natCast, hsym, decide_false, Bool.false_eq_true, false_and, if_false]
  congr 1
  funext p
  congr 1
  funext q
  exact bind_pure _

end

end EllB
end Bml
