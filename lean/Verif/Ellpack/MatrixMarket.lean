import Verif.Common.MatrixMarket
import Verif.Ellpack.Stored
import Verif.Csr.OfRows
import Verif.Dense.Ops

/-!
# Matrix files: ELLPACK, CSR and dense

`bml_write_bml_matrix` and `bml_read_bml_matrix` of the three formats, on top of the text layer in
`Verif/Common/MatrixMarket.lean`.
-/

namespace Bml

variable {R : Type}

/-- The mirrored entries that a file declared `symmetric` stands for. -/
def Mm.mirror (e : Nat × Nat × R) : List (Nat × Nat × R) :=
  if e.2.1 = e.1 then [e] else [e, (e.2.1, e.1, e.2.2)]

theorem Mm.mem_mirror {es : List (Nat × Nat × R)} {e : Nat × Nat × R} (he : e ∈ es) :
    (e.1, e.2.1, e.2.2) ∈ es.flatMap Mm.mirror ∧ (e.2.1, e.1, e.2.2) ∈ es.flatMap Mm.mirror := by
  obtain ⟨i, j, v⟩ := e
  simp only [List.mem_flatMap]
  constructor
  · refine ⟨_, he, ?_⟩
    unfold Mm.mirror
    split <;> simp
  · refine ⟨_, he, ?_⟩
    unfold Mm.mirror
    split
    · next h => simp only at h; subst h; simp
    · simp

theorem Mm.not_mem_mirror {es : List (Nat × Nat × R)} {i j : Nat}
    (hno : ∀ v, (i, j, v) ∉ es ∧ (j, i, v) ∉ es) (v : R) : (i, j, v) ∉ es.flatMap Mm.mirror := by
  intro hin
  obtain ⟨⟨i', j', v'⟩, he, hin⟩ := List.mem_flatMap.1 hin
  unfold Mm.mirror at hin
  split at hin
  · simp at hin
    obtain ⟨rfl, rfl, rfl⟩ := hin
    exact (hno _).1 he
  · simp at hin
    rcases hin with ⟨rfl, rfl, rfl⟩ | ⟨rfl, rfl, rfl⟩
    · exact (hno _).1 he
    · exact (hno _).2 he

/-- A step that does with an entry and its mirror image what `op` does with one entry. -/
theorem Mm.forList_mirror {σ : Type} (op : σ → Nat → Nat → R → Res σ) (es : List (Nat × Nat × R))
    (s : σ) :
    (forList es s fun e s => do
        let s ← op s e.1 e.2.1 e.2.2
        if e.2.1 ≠ e.1 then op s e.2.1 e.1 e.2.2 else pure s)
      = forList (es.flatMap Mm.mirror) s fun e s => op s e.1 e.2.1 e.2.2 := by
  induction es generalizing s with
  | nil => rfl
  | cons e es ih =>
    obtain ⟨i, j, v⟩ := e
    rw [List.flatMap_cons, forList_append, forList_cons]
    simp only [ih]
    congr 1
    unfold Mm.mirror
    by_cases h : j = i
    · subst h
      simp only [ne_eq, not_true_eq_false, if_false, if_true, forList_cons, forList_nil]
      rfl
    · simp only [ne_eq, h, not_false_eq_true, if_true, if_false, forList_cons, forList_nil]
      congr 1
      funext s
      exact (bind_pure _).symm

/-- The entries of rows `0 … N-1`, row by row. -/
def Mm.rowEntries (N : Nat) (rows : Nat → SRow R) : List (Nat × Nat × R) :=
  (List.range N).flatMap fun i => (rows i).map fun p => (i, p.1, p.2)

theorem Mm.mem_rowEntries {N : Nat} {rows : Nat → SRow R} {i j : Nat} {v : R} :
    (i, j, v) ∈ Mm.rowEntries N rows ↔ i < N ∧ (j, v) ∈ rows i := by
  simp only [Mm.rowEntries, List.mem_flatMap, List.mem_range, List.mem_map, Prod.mk.injEq]
  constructor
  · rintro ⟨i', h1, ⟨c, w⟩, h2, rfl, rfl, rfl⟩
    exact ⟨h1, h2⟩
  · rintro ⟨h1, h2⟩
    exact ⟨i, h1, (j, v), h2, rfl, rfl, rfl⟩

theorem Mm.rowEntries_nodup {N n : Nat} {rows : Nat → SRow R}
    (h : ∀ i, i < n → SRow.Good N (rows i)) :
    ((Mm.rowEntries n rows).map fun e => (e.1, e.2.1)).Nodup := by
  unfold Mm.rowEntries
  rw [List.map_flatMap]
  induction n with
  | zero => simp
  | succ n ih =>
    rw [List.range_succ, List.flatMap_append, List.nodup_append]
    refine ⟨ih (fun i hi => h i (by omega)), ?_, ?_⟩
    · have := (h n (by omega)).1
      simp only [List.flatMap_cons, List.flatMap_nil, List.append_nil, List.map_map]
      have e : ((fun e : Nat × Nat × R => (e.1, e.2.1)) ∘ fun p : Nat × R => (n, p.1, p.2))
          = (fun j => (n, j)) ∘ Prod.fst := rfl
      rw [e, ← List.map_map]
      exact this.map (fun x y hxy => by simpa using hxy)
    · rintro ⟨x1, x2⟩ hx ⟨y1, y2⟩ hy he
      simp at hx hy he
      omega

theorem Mm.rowEntries_count {N n : Nat} (rows : Nat → SRow R) (i : Nat) :
    ((Mm.rowEntries n rows).filter fun e => e.1 = i).length
      = if i < n then (rows i).length else 0 := by
  unfold Mm.rowEntries
  induction n with
  | zero => simp
  | succ n ih =>
    rw [List.range_succ, List.flatMap_append, List.filter_append, List.length_append, ih]
    by_cases h : i = n
    · subst h
      have : ((rows i).map fun p => (i, p.1, p.2)).filter (fun e => decide (e.1 = i))
          = (rows i).map fun p => (i, p.1, p.2) := by
        rw [List.filter_eq_self]
        rintro e he
        obtain ⟨p, -, rfl⟩ := List.mem_map.1 he
        simp
      rw [List.flatMap_singleton, this]
      simp
    · have : ((rows n).map fun p => (n, p.1, p.2)).filter (fun e => decide (e.1 = i)) = [] := by
        rw [List.filter_eq_nil_iff]
        rintro e he
        obtain ⟨p, -, rfl⟩ := List.mem_map.1 he
        simpa using fun e => h e.symm
      rw [List.flatMap_singleton, this, List.length_nil, Nat.add_zero]
      exact if_congr (by omega) rfl rfl

/-- The last write to a position wins; with distinct positions, the only one. -/
theorem Mm.foldl_set {es : List (Nat × Nat × R)} (hn : (es.map fun e => (e.1, e.2.1)).Nodup)
    (a : Spec.Mat R) :
    (∀ i j v, (i, j, v) ∈ es →
      es.foldl (fun a e => Spec.set a e.1 e.2.1 e.2.2) a i j = v) ∧
    ∀ i j, (∀ v, (i, j, v) ∉ es) →
      es.foldl (fun a e => Spec.set a e.1 e.2.1 e.2.2) a i j = a i j := by
  induction es generalizing a with
  | nil => exact ⟨fun _ _ _ h => by simp at h, fun _ _ _ => rfl⟩
  | cons e es ih =>
    obtain ⟨i0, j0, v0⟩ := e
    simp only [List.map_cons, List.nodup_cons] at hn
    obtain ⟨h1, h2⟩ := ih hn.2 (Spec.set a i0 j0 v0)
    constructor
    · intro i j v h
      rw [List.foldl_cons]
      rcases List.mem_cons.1 h with h | h
      · injection h with e1 e2
        injection e2 with e2 e3
        subst e1 e2 e3
        rw [h2 i j (fun w hw => hn.1 (List.mem_map.2 ⟨_, hw, rfl⟩))]
        simp [Spec.set]
      · exact h1 i j v h
    · intro i j h
      rw [List.foldl_cons, h2 i j (fun v hv => h v (by simp [hv]))]
      have : ¬ (i = i0 ∧ j = j0) := by
        rintro ⟨rfl, rfl⟩
        exact h v0 (by simp)
      simp [Spec.set, this]

theorem Mm.rowEntries_foldl [AddCommMonoid R] {N : Nat} {rows : Nat → SRow R}
    (h : ∀ i, i < N → SRow.Good N (rows i)) {i j : Nat} (hi : i < N) :
    (Mm.rowEntries N rows).foldl (fun a e => Spec.set a e.1 e.2.1 e.2.2) (fun _ _ => 0) i j
      = (rows i).den j := by
  obtain ⟨h1, h2⟩ := Mm.foldl_set (Mm.rowEntries_nodup h) (fun _ _ => (0 : R))
  by_cases hm : j ∈ (rows i).map Prod.fst
  · obtain ⟨⟨c, v⟩, hp, rfl⟩ := List.mem_map.1 hm
    rw [h1 i c v (Mm.mem_rowEntries.2 ⟨hi, hp⟩)]
    exact (SRow.den_of_mem (h i hi).1 hp).symm
  · rw [h2 i j (fun v hv => hm (List.mem_map.2 ⟨_, (Mm.mem_rowEntries.1 hv).2, rfl⟩)),
      SRow.den_of_not_mem hm]

namespace Ell

/-- `bml_write_bml_matrix_ellpack` (`bml_utilities_ellpack_typed.c` 128-199), on the rank that
prints. -/
def writeMm (f : Mm.Fmt R) (A : Ell R) : Res (List Char) := do
  let msum ← loop A.N 0 fun i m => do
    let n ← A.nnz.read i
    pure (m + n)
  loop A.N (Mm.headerText f.kind "general" ++ Mm.sizeText A.N msum) fun i out => do
    let n ← A.nnz.read i
    loop n out fun j out => do
      let c ← A.idx.read (ROWMAJOR i j A.N A.M)
      let v ← A.val.read (ROWMAJOR i j A.N A.M)
      pure (out ++ Mm.lineText f i c v)

/-- Appending an entry, lines 100-103.  A negative column index is stored by C as it is; it is
`ub` here (no matrix with such a column can be used). -/
def appendInt (A : Ell R) (i j : Int) (v : R) : Res (Ell R) :=
  if i < 0 ∨ j < 0 then .ub
  else do
    let ind ← A.nnz.read i.toNat
    let A ← A.putEntry i.toNat ind j.toNat v
    A.setNnz i.toNat (ind + 1)

/-- `bml_read_bml_matrix_ellpack` (`bml_utilities_ellpack_typed.c` 22-119). -/
def readMm (f : Mm.Fmt R) (A : Ell R) (file : List Char) : Res (Ell R) :=
  Mm.readWith f file A fun sym i j v A => do
    let A ← A.appendInt i j v
    if sym ∧ j ≠ i then A.appendInt j i v else pure A

/-- The stored entries, row by row. -/
def entries (A : Ell R) : List (Nat × Nat × R) :=
  Mm.rowEntries A.N A.row

theorem appendInt_nat [CommRing R] (A : Ell R) (i j : Nat) (v : R) :
    A.appendInt i j v = A.setElementNew i j v := by
  unfold appendInt setElementNew
  rw [if_neg (by omega)]
  simp

theorem writeMm_eq [CommRing R] {A : Ell R} {N : Nat} {a : Spec.Mat R} (hA : A.Rep N a)
    (f : Mm.Fmt R) : A.writeMm f = .ok (Mm.fileText f "general" N A.entries) := by
  have hcnt : (loop A.N 0 fun i m => do
      let n ← A.nnz.read i
      pure (m + n)) = .ok A.entries.length := by
    have h := wp_loop (E := False) (n := A.N) (s := (0 : Nat))
      (f := fun i m => do
        let n ← A.nnz.read i
        pure (m + n))
      (fun k m => m = ((List.range k).flatMap fun i =>
        (A.row i).map fun p => (i, p.1, p.2)).length) rfl (by
        rintro k hk m rfl
        rw [read_nnz hA.shape hk, Res.bind_ok]
        simp [List.range_succ])
    obtain ⟨m, e, hm⟩ := Res.wp_exists h
    rw [e, hm]
    rfl
  unfold writeMm
  rw [hcnt, Res.bind_ok]
  have h := wp_loop (E := False) (n := A.N)
    (s := Mm.headerText f.kind "general" ++ Mm.sizeText A.N A.entries.length)
    (f := fun i out => do
      let n ← A.nnz.read i
      loop n out fun j out => do
        let c ← A.idx.read (ROWMAJOR i j A.N A.M)
        let v ← A.val.read (ROWMAJOR i j A.N A.M)
        pure (out ++ Mm.lineText f i c v))
    (fun k out => out = Mm.headerText f.kind "general" ++ (Mm.sizeText A.N A.entries.length ++
      ((List.range k).flatMap fun i => (A.row i).map fun p => (i, p.1, p.2)).flatMap
        fun e => Mm.lineText f e.1 e.2.1 e.2.2)) (by simp) (by
      rintro k hk out rfl
      rw [read_nnz hA.shape hk, Res.bind_ok]
      refine Res.wp_mono (wp_loop (I := fun n out' => out' = Mm.headerText f.kind "general" ++
        (Mm.sizeText A.N A.entries.length ++
      ((List.range k).flatMap fun i => (A.row i).map fun p => (i, p.1, p.2)).flatMap
        fun e => Mm.lineText f e.1 e.2.1 e.2.2) ++ (A.rowPre k n).flatMap
          fun p => Mm.lineText f k p.1 p.2) (by simp) ?_) ?_
      · rintro n hn out rfl
        have hM : n < A.M := by have := hA.le k (by rw [← hA.dim]; exact hk); omega
        rw [read_idx hA.shape hk hM, Res.bind_ok, read_val hA.shape hk hM, Res.bind_ok,
          rowPre_succ]
        simp
      · rintro out rfl
        simp [List.range_succ, List.flatMap_map, row])
  obtain ⟨m, e, hm⟩ := Res.wp_exists h
  rw [e, hm, hA.dim]
  unfold Mm.fileText entries Mm.rowEntries
  rw [hA.dim]

/-- Reading a file does with its entries (and, if it is declared symmetric, with their mirror
images) what `bml_set_element_new` does. -/
theorem readMm_eq [CommRing R] {f : Mm.Fmt R} (hk : Mm.Word f.kind) {sym : String}
    (hs : Mm.Word sym) (A : Ell R) (n : Nat) (es : List (Nat × Nat × R))
    (hv : ∀ e ∈ es, f.Exact e.2.2) :
    A.readMm f (Mm.fileText f sym n es) = forList
      (if sym = "symmetric" then es.flatMap Mm.mirror else es) A
      fun e A => A.setElementNew e.1 e.2.1 e.2.2 := by
  unfold readMm
  rw [Mm.readWith_fileText hk hs n es hv]
  simp only [appendInt_nat]
  by_cases h : sym = "symmetric"
  · rw [if_pos h, ← Mm.forList_mirror (fun A i j v => setElementNew A i j v)]
    simp [h]
  · rw [if_neg h]
    simp only [h, decide_false, Bool.false_eq_true, false_and, if_false]
    congr 1
    funext e A
    exact bind_pure _

end Ell

namespace Csr

/-- `bml_write_bml_matrix_csr` (`bml_utilities_csr_typed.c` 114-178), on the rank that prints. -/
def writeMm (f : Mm.Fmt R) (A : Csr R) : Res (List Char) := do
  let msum ← loop A.N 0 fun i m => do
    let r ← A.data.read i
    pure (m + r.nnz)
  loop A.N (Mm.headerText f.kind "general" ++ Mm.sizeText A.N msum) fun i out => do
    let r ← A.data.read i
    r.fold out fun c v out => pure (out ++ Mm.lineText f i c v)

/-- `csr_set_row_element_new` on row `i`.  A negative column is `ub` here. -/
def appendInt [CommRing R] (A : Csr R) (i j : Int) (v : R) : Res (Csr R) :=
  if i < 0 ∨ j < 0 then .ub else A.onRow i.toNat (·.setNew j.toNat v)

/-- `bml_read_bml_matrix_csr` (`bml_utilities_csr_typed.c` 23-105). -/
def readMm [CommRing R] (f : Mm.Fmt R) (A : Csr R) (file : List Char) : Res (Csr R) :=
  Mm.readWith f file A fun sym i j v A => do
    let A ← A.appendInt i j v
    if sym ∧ j ≠ i then A.appendInt j i v else pure A

/-- The stored entries, row by row. -/
def entries (A : Csr R) : List (Nat × Nat × R) := Mm.rowEntries A.N A.row

theorem appendInt_nat [CommRing R] (A : Csr R) (i j : Nat) (v : R) :
    A.appendInt i j v = A.setElementNew i j v := by
  unfold appendInt setElementNew
  rw [if_neg (by omega)]
  simp

theorem readMm_eq [CommRing R] {f : Mm.Fmt R} (hk : Mm.Word f.kind) {sym : String}
    (hs : Mm.Word sym) (A : Csr R) (n : Nat) (es : List (Nat × Nat × R))
    (hv : ∀ e ∈ es, f.Exact e.2.2) :
    A.readMm f (Mm.fileText f sym n es) = forList
      (if sym = "symmetric" then es.flatMap Mm.mirror else es) A
      fun e A => A.setElementNew e.1 e.2.1 e.2.2 := by
  unfold readMm
  rw [Mm.readWith_fileText hk hs n es hv]
  simp only [appendInt_nat]
  by_cases h : sym = "symmetric"
  · rw [if_pos h, ← Mm.forList_mirror (fun A i j v => setElementNew A i j v)]
    simp [h]
  · rw [if_neg h]
    simp only [h, decide_false, Bool.false_eq_true, false_and, if_false]
    congr 1
    funext e A
    exact bind_pure _

theorem writeMm_eq [CommRing R] {A : Csr R} (hA : A.WF)
    (f : Mm.Fmt R) : A.writeMm f = .ok (Mm.fileText f "general" A.N A.entries) := by
  have hrd : ∀ i, i < A.N → A.data.read i = .ok (A.data.get i) :=
    fun i hi => Arr.read_ok (by rw [hA.size]; exact hi)
  have hcnt : (loop A.N 0 fun i m => do
      let r ← A.data.read i
      pure (m + r.nnz)) = .ok A.entries.length := by
    have h := wp_loop (E := False) (n := A.N) (s := (0 : Nat))
      (f := fun i m => do
        let r ← A.data.read i
        pure (m + r.nnz))
      (fun k m => m = ((List.range k).flatMap fun i =>
        (A.row i).map fun p => (i, p.1, p.2)).length) rfl (by
        rintro k hk m rfl
        rw [hrd k hk, Res.bind_ok]
        simp [List.range_succ, row])
    obtain ⟨m, e, hm⟩ := Res.wp_exists h
    rw [e, hm]
    rfl
  unfold writeMm
  rw [hcnt, Res.bind_ok]
  have h := wp_loop (E := False) (n := A.N)
    (s := Mm.headerText f.kind "general" ++ Mm.sizeText A.N A.entries.length)
    (f := fun i out => do
      let r ← A.data.read i
      r.fold out fun c v out => pure (out ++ Mm.lineText f i c v))
    (fun k out => out = Mm.headerText f.kind "general" ++ (Mm.sizeText A.N A.entries.length ++
      ((List.range k).flatMap fun i => (A.row i).map fun p => (i, p.1, p.2)).flatMap
        fun e => Mm.lineText f e.1 e.2.1 e.2.2)) (by simp) (by
      rintro k hk out rfl
      rw [hrd k hk, Res.bind_ok, CsrRow.fold_eq (hA.row k hk)]
      have : ∀ (L : SRow R) (out : List Char), (forList L out fun p out =>
          pure (out ++ Mm.lineText f k p.1 p.2)) = .ok (out ++ L.flatMap
            fun p => Mm.lineText f k p.1 p.2) := by
        intro L
        induction L with
        | nil => intro out; simp
        | cons p L ih =>
          intro out
          rw [forList_cons, pure_bind, ih, List.flatMap_cons, List.append_assoc]
      rw [this]
      simp [List.range_succ, List.flatMap_map, row])
  obtain ⟨m, e, hm⟩ := Res.wp_exists h
  rw [e, hm]
  rfl

end Csr

namespace Dense

/-- `bml_write_bml_matrix_dense` (`bml_utilities_dense_typed.c` 133-205).  `nz v` is the test
`ABS(v) > 0`. -/
def writeMm (f : Mm.Fmt R) (nz : R → Bool) (A : Dense R) : Res (List Char) := do
  let msum ← loop A.N 0 fun i m =>
    loop A.N m fun j m => do
      let v ← A.mat.read (ROWMAJOR i j A.N A.N)
      pure (if nz v then m + 1 else m)
  loop A.N (Mm.headerText f.kind "general" ++ Mm.sizeText A.N msum) fun i out =>
    loop A.N out fun j out => do
      let v ← A.mat.read (ROWMAJOR i j A.N A.N)
      pure (if nz v then out ++ Mm.lineText f i j v else out)

/-- `bml_read_bml_matrix_dense` (`bml_utilities_dense_typed.c` 27-122).  The header's fifth word is
read and not looked at. -/
def readMm (f : Mm.Fmt R) (A : Dense R) (file : List Char) : Res (Dense R) :=
  Mm.readWith f file A fun _ i j v A => A.setElement i j v

/-- The elements that are written. -/
def entries (nz : R → Bool) (A : Dense R) : List (Nat × Nat × R) :=
  Mm.rowEntries A.N fun i => SRow.ofCols ((List.range A.N).filter fun j => nz (A.mat.get (i * A.N + j)))
    fun j => A.mat.get (i * A.N + j)

theorem readMm_eq [CommRing R] {f : Mm.Fmt R} (hk : Mm.Word f.kind) {sym : String}
    (hs : Mm.Word sym) (A : Dense R) (n : Nat) (es : List (Nat × Nat × R))
    (hv : ∀ e ∈ es, f.Exact e.2.2) :
    A.readMm f (Mm.fileText f sym n es) = forList es A
      fun e A => A.setElement e.1 e.2.1 e.2.2 := by
  unfold readMm
  rw [Mm.readWith_fileText hk hs n es hv]

theorem writeMm_eq [CommRing R] {A : Dense R} (hA : A.mat.size = A.N * A.N)
    (f : Mm.Fmt R) (nz : R → Bool) :
    A.writeMm f nz = .ok (Mm.fileText f "general" A.N (A.entries nz)) := by
  have hrd : ∀ i j, i < A.N → j < A.N → A.mat.read (ROWMAJOR i j A.N A.N)
      = .ok (A.mat.get (i * A.N + j)) :=
    fun i j hi hj => Arr.read_ok (by rw [hA]; exact addr_lt hi hj)
  -- what row `i` contributes, up to column `k`
  let part : Nat → Nat → SRow R := fun i k =>
    SRow.ofCols ((List.range k).filter fun j => nz (A.mat.get (i * A.N + j)))
      fun j => A.mat.get (i * A.N + j)
  have hpart : ∀ i k, part i (k + 1) = part i k ++
      if nz (A.mat.get (i * A.N + k)) then [(k, A.mat.get (i * A.N + k))] else [] := by
    intro i k
    show SRow.ofCols _ _ = SRow.ofCols _ _ ++ _
    rw [List.range_succ, List.filter_append, SRow.ofCols_append]
    by_cases h : nz (A.mat.get (i * A.N + k)) <;> simp [h, SRow.ofCols]
  have hcnt : (loop A.N 0 fun i m =>
      loop A.N m fun j m => do
        let v ← A.mat.read (ROWMAJOR i j A.N A.N)
        pure (if nz v then m + 1 else m)) = .ok (A.entries nz).length := by
    have h := wp_loop (E := False) (n := A.N) (s := (0 : Nat))
      (f := fun i m => loop A.N m fun j m => do
        let v ← A.mat.read (ROWMAJOR i j A.N A.N)
        pure (if nz v then m + 1 else m))
      (fun k m => m = ((List.range k).flatMap fun i =>
        (part i A.N).map fun p => (i, p.1, p.2)).length) rfl (by
        rintro k hk m rfl
        refine Res.wp_mono (wp_loop (I := fun n m => m = ((List.range k).flatMap fun i =>
          (part i A.N).map fun p => (i, p.1, p.2)).length + (part k n).length)
            (by simp [part, SRow.ofCols]) ?_) ?_
        · rintro n hn m rfl
          rw [hrd k n hk hn, Res.bind_ok, hpart]
          by_cases h : nz (A.mat.get (k * A.N + n)) <;> simp [h] <;> rfl
        · rintro m rfl
          simp [List.range_succ])
    obtain ⟨m, e, hm⟩ := Res.wp_exists h
    rw [e, hm]
    rfl
  unfold writeMm
  rw [hcnt, Res.bind_ok]
  have h := wp_loop (E := False) (n := A.N)
    (s := Mm.headerText f.kind "general" ++ Mm.sizeText A.N (A.entries nz).length)
    (f := fun i out => loop A.N out fun j out => do
      let v ← A.mat.read (ROWMAJOR i j A.N A.N)
      pure (if nz v then out ++ Mm.lineText f i j v else out))
    (fun k out => out = Mm.headerText f.kind "general" ++
      (Mm.sizeText A.N (A.entries nz).length ++
      ((List.range k).flatMap fun i => (part i A.N).map fun p => (i, p.1, p.2)).flatMap
        fun e => Mm.lineText f e.1 e.2.1 e.2.2)) (by simp) (by
      rintro k hk out rfl
      refine Res.wp_mono (wp_loop (I := fun n out' => out' = Mm.headerText f.kind "general" ++
        (Mm.sizeText A.N (A.entries nz).length ++
      ((List.range k).flatMap fun i => (part i A.N).map fun p => (i, p.1, p.2)).flatMap
        fun e => Mm.lineText f e.1 e.2.1 e.2.2) ++ (part k n).flatMap
          fun p => Mm.lineText f k p.1 p.2) (by simp [part, SRow.ofCols]) ?_) ?_
      · rintro n hn out rfl
        rw [hrd k n hk hn, Res.bind_ok, hpart]
        by_cases h : nz (A.mat.get (k * A.N + n)) <;> simp [h]
      · rintro out rfl
        simp [List.range_succ, List.flatMap_map])
  obtain ⟨m, e, hm⟩ := Res.wp_exists h
  rw [e, hm]
  rfl

end Dense
end Bml
