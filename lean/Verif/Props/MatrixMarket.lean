import Verif.Ellblock.MatrixMarket
import Verif.Props.EllAccess
import Verif.Props.Csr
import Verif.Props.Ellblock

/-!
# Property theorems: matrix files (C27)

A file is a list of characters.  `A.writeMm f` is the text `bml_write_bml_matrix` writes,
`Z.readMm f file` is the result of `bml_read_bml_matrix` into the matrix `Z`.  `f` is the way the C
library prints and parses an element; `f.Exact v` says that the value `v` survives printing and
parsing.  `Mm.fileText f sym n es` is the text with the header word `sym`, the dimension `n` and the
entries `es` (`(row, column, value)`, from zero).
-/

namespace Bml.Props

open Bml

/-! ## A concrete element format -/

/-- Whole numbers, printed by `%d`: a `Fmt` all of whose values are exact. -/
def fmtInt : Mm.Fmt Int where
  kind := "real"
  print v := if v < 0 then '-' :: Mm.dec v.natAbs else Mm.dec v.natAbs
  scan := Mm.scanInt

theorem fmtInt_kind : Mm.Word fmtInt.kind := ⟨by decide, by decide, by decide⟩

theorem fmtInt_exact (v : Int) : fmtInt.Exact v := by
  intro rest
  show Mm.scanInt _ = _
  rw [Mm.scanInt_ws (by decide)]
  have hnl : ∀ c, ('\n' :: rest).head? = some c → c.isDigit = false := by
    intro c h
    simp at h
    subst h
    decide
  show Mm.scanInt ((if v < 0 then '-' :: Mm.dec v.natAbs else Mm.dec v.natAbs) ++ '\n' :: rest) = _
  by_cases h : v < 0
  · rw [if_pos h]
    -- the sign, then the digits
    obtain ⟨h1, h2⟩ := Mm.takeWhile_stop (p := Char.isDigit) (w := Mm.dec v.natAbs)
      (rest := '\n' :: rest) (fun c h => Mm.dec_digits h) hnl
    unfold Mm.scanInt
    have hs : Mm.scanSign (Mm.skipWs ('-' :: Mm.dec v.natAbs ++ '\n' :: rest))
        = (true, Mm.dec v.natAbs ++ '\n' :: rest) := by
      have : Mm.skipWs ('-' :: Mm.dec v.natAbs ++ '\n' :: rest)
          = '-' :: (Mm.dec v.natAbs ++ '\n' :: rest) := by
        unfold Mm.skipWs
        rw [List.cons_append, List.dropWhile_cons_of_neg (by decide)]
      rw [this]
      rfl
    simp only [hs, h1, h2]
    rw [if_neg (show ¬ Mm.dec v.natAbs = [] from Nat.toDigits_ne_nil)]
    simp only [if_true]
    congr 2
    show -((Nat.ofDigitChars 10 (Nat.toDigits 10 v.natAbs) 0 : Nat) : Int) = v
    rw [Nat.ofDigitChars_ten_toDigits]
    omega
  · rw [if_neg h, Mm.scanInt_dec _ hnl]
    congr 2
    omega

theorem word_general : Mm.Word "general" := ⟨by decide, by decide, by decide⟩
theorem word_symmetric : Mm.Word "symmetric" := ⟨by decide, by decide, by decide⟩

variable {R : Type} [CommRing R]

/-! ## ELLPACK -/

/-- **C27**, ELLPACK: writing a matrix and reading the file into a zero matrix of the same size with
room for the rows gives back all elements. -/
theorem C27_ellpack_round_trip {N : Nat} {A : Ell R} {a : Spec.Mat R} (hA : A.Represents N a)
    {f : Mm.Fmt R} (hk : Mm.Word f.kind) (hv : ∀ i j, i < N → j < N → f.Exact (a i j))
    {M : Nat} (hroom : ∀ i, i < N → A.nnz.get i ≤ M) :
    ∃ file Z, A.writeMm f = .ok file ∧ (Ell.zeroMatrix N M).readMm f file = .ok Z ∧ Z.M = M ∧
      Z.Represents N a := by
  have hR := Ell.represents_iff.1 hA
  have hmem : ∀ e ∈ A.entries, e.1 < N ∧ e.2.1 < N ∧ e.2.2 = a e.1 e.2.1 := by
    rintro ⟨i, j, v⟩ he
    obtain ⟨h1, h2⟩ := Mm.mem_rowEntries.1 he
    rw [hR.dim] at h1
    have hg := hR.good i h1
    refine ⟨h1, hg.2 _ h2, ?_⟩
    have hj : j < N := hg.2 _ h2
    simp only
    rw [← hR.den i j h1 hj, SRow.den_of_mem hg.1 h2]
  obtain ⟨Z, e, h1, h2⟩ := Ell.writes_rep (fun A i j v => A.setElementNew i j v)
    (fun A i j v hS hi hc _ => Ell.setElementNew_append hS hi v hc) A.entries
    (Ell.zeroMatrix N M) _ (Ell.zero_rep N M)
    (fun w hw => ⟨(hmem w hw).1, (hmem w hw).2.1, by
      rintro ⟨k, hk, -⟩
      exact absurd hk (Nat.not_lt_zero _)⟩)
    (Mm.rowEntries_nodup (N := N) (fun i hi => hR.good i (by rw [← hR.dim]; exact hi)))
    (fun i hi => by
      unfold Ell.entries
      rw [Mm.rowEntries_count (N := N), if_pos (by rw [hR.dim]; exact hi), Ell.row_length]
      have := hroom i hi
      show 0 + _ ≤ M
      omega)
  refine ⟨Mm.fileText f "general" N A.entries, Z, Ell.writeMm_eq hR f, ?_, h1, ?_⟩
  · rw [Ell.readMm_eq hk word_general _ N _ (fun e he => by
      obtain ⟨h1, h2, h3⟩ := hmem e he
      rw [h3]
      exact hv _ _ h1 h2)]
    exact e
  · refine Ell.represents_iff.2 ⟨h2.shape, h2.dim, h2.le, h2.good, fun i j hi hj => ?_⟩
    rw [h2.den i j hi hj]
    unfold Ell.entries
    rw [hR.dim, Mm.rowEntries_foldl (fun i hi => hR.good i hi) hi, hR.den i j hi hj]

/-- A `3 × 3` matrix, written and read back. -/
example : ∃ file Z, exA.writeMm fmtInt = .ok file ∧
    (Ell.zeroMatrix 3 4).readMm fmtInt file = .ok Z ∧ Z.M = 4 ∧ Z.Represents 3 exa :=
  C27_ellpack_round_trip exA_rep fmtInt_kind (fun _ _ _ _ => fmtInt_exact _) (by decide)

/-- What the file looks like. -/
example : (Ell.ofRows 2 2 (fun i => if i = 0 then [(1, 5)] else [(0, 2), (1, -7)]) :
    Ell Int).writeMm fmtInt = .ok ("%%%MatrixMarket matrix coordinate real general\n" ++
      "2 2 3\n" ++ "1 2 5\n" ++ "2 1 2\n" ++ "2 2 -7\n").toList := by decide +kernel

/-- **C27**, reading any ELLPACK file that is not declared symmetric, with entries in range at
distinct positions that are not stored in the matrix yet, and no more of them than fit: the entries
are set, nothing else changes. -/
theorem C27_ellpack_read {N : Nat} {A : Ell R} {a : Spec.Mat R} (hA : A.Represents N a)
    {f : Mm.Fmt R} (hk : Mm.Word f.kind) {sym : String} (hs : Mm.Word sym)
    (hsym : sym ≠ "symmetric") (n : Nat) (es : List (Nat × Nat × R))
    (hv : ∀ e ∈ es, f.Exact e.2.2)
    (hnew : ∀ e ∈ es, e.1 < N ∧ e.2.1 < N ∧ ¬ A.Stored e.1 e.2.1)
    (hdistinct : (es.map (fun e => (e.1, e.2.1))).Nodup)
    (hroom : ∀ i, i < N → A.nnz.get i + (es.filter (fun e => e.1 = i)).length ≤ A.M) :
    ∃ A', A.readMm f (Mm.fileText f sym n es) = .ok A' ∧
      A'.Represents N (es.foldl (fun a e => Spec.set a e.1 e.2.1 e.2.2) a) := by
  obtain ⟨A', e, -, h⟩ := C01_set_element_new hA es hnew hdistinct hroom
  refine ⟨A', ?_, h⟩
  rw [Ell.readMm_eq hk hs A n es hv, if_neg hsym]
  exact e

example : ∃ A', exA.readMm fmtInt (Mm.fileText fmtInt "general" 3 [(0, 2, 3), (2, 0, 4)]) = .ok A' ∧
    A'.Represents 3 ([(0, 2, 3), (2, 0, 4)].foldl
      (fun a (e : Nat × Nat × Int) => Spec.set a e.1 e.2.1 e.2.2) exa) :=
  C27_ellpack_read exA_rep fmtInt_kind word_general (by decide) 3 _ (fun _ _ => fmtInt_exact _)
    (by decide) (by decide) (by decide)

/-- **C27 needs exact printing**: if two values are printed alike, the matrices that differ in this
value give the same file, so no reader can give back both.  (`%20.15g` prints 15 digits; `0.1 + 0.2`
and `0.3` are printed alike.) -/
theorem C27_lossy_format {f : Mm.Fmt R} {v w : R} (h : f.print v = f.print w) :
    (Ell.ofRows 1 1 (fun _ => [(0, v)])).writeMm f = (Ell.ofRows 1 1 (fun _ => [(0, w)])).writeMm f := by
  have hr : ∀ x : R, (Ell.ofRows 1 1 (fun _ => [(0, x)])).Represents 1
      (fun i j => SRow.den [(0, x)] j) := fun x =>
    Ell.ofRows_rep (by intro i hi; exact ⟨by simp, ⟨by simp, by simp⟩⟩)
  rw [Ell.writeMm_eq (Ell.represents_iff.1 (hr v)), Ell.writeMm_eq (Ell.represents_iff.1 (hr w))]
  have he : ∀ x : R, (Ell.ofRows 1 1 (fun _ => [(0, x)])).entries = [(0, 0, x)] := fun x => by
    unfold Ell.entries Mm.rowEntries
    rw [show (Ell.ofRows 1 1 (fun _ => [(0, x)])).N = 1 from rfl]
    simp [Ell.ofRows_row]
  rw [he, he]
  simp [Mm.fileText, Mm.lineText, h]

/-- **C27**, a file declared symmetric, ELLPACK: each entry is set at its position and at the
mirrored one.  `Mm.mirror e` is the entry and, off the diagonal, its mirror image. -/
theorem C27_ellpack_symmetric {N : Nat} {A : Ell R} {a : Spec.Mat R} (hA : A.Represents N a)
    {f : Mm.Fmt R} (hk : Mm.Word f.kind) (n : Nat) (es : List (Nat × Nat × R))
    (hv : ∀ e ∈ es, f.Exact e.2.2)
    (hnew : ∀ e ∈ es.flatMap Mm.mirror, e.1 < N ∧ e.2.1 < N ∧ ¬ A.Stored e.1 e.2.1)
    (hdistinct : ((es.flatMap Mm.mirror).map (fun e => (e.1, e.2.1))).Nodup)
    (hroom : ∀ i, i < N →
      A.nnz.get i + ((es.flatMap Mm.mirror).filter (fun e => e.1 = i)).length ≤ A.M) :
    ∃ A', A.readMm f (Mm.fileText f "symmetric" n es) = .ok A' ∧
      (∀ e ∈ es, A'.getElement e.1 e.2.1 = .ok e.2.2 ∧ A'.getElement e.2.1 e.1 = .ok e.2.2) ∧
      ∀ i j : Nat, i < N → j < N → (∀ v, (i, j, v) ∉ es ∧ (j, i, v) ∉ es) →
        A'.getElement i j = .ok (a i j) := by
  obtain ⟨A', e, -, h⟩ := C01_set_element_new hA (es.flatMap Mm.mirror) hnew hdistinct hroom
  obtain ⟨q1, q2⟩ := Mm.foldl_set hdistinct a
  refine ⟨A', ?_, ?_, ?_⟩
  · rw [Ell.readMm_eq hk word_symmetric A n es hv, if_pos rfl]
    exact e
  · intro e he
    obtain ⟨m1, m2⟩ := Mm.mem_mirror he
    obtain ⟨r1, r2, -⟩ := hnew _ m1
    rw [h.get _ _ r1 r2, h.get _ _ r2 r1, q1 _ _ _ m1, q1 _ _ _ m2]
    exact ⟨rfl, rfl⟩
  · intro i j hi hj hno
    rw [h.get i j hi hj, q2]
    exact fun v hin => Mm.not_mem_mirror hno v hin

/-- The lower triangle of a symmetric `3 × 3` matrix. -/
def exSym : List (Nat × Nat × Int) := [(0, 0, 4), (1, 0, -2), (2, 1, 5)]

example : ∃ A', (Ell.zeroMatrix 3 3 : Ell Int).readMm fmtInt
      (Mm.fileText fmtInt "symmetric" 3 exSym) = .ok A' ∧
    A'.getElement 0 1 = .ok (-2) ∧ A'.getElement 1 0 = .ok (-2) ∧ A'.getElement 2 2 = .ok 0 := by
  obtain ⟨A', e, h1, h2⟩ := C27_ellpack_symmetric (N := 3)
    (Ell.represents_iff.2 (Ell.zero_rep 3 3)) fmtInt_kind 3 exSym (fun _ _ => fmtInt_exact _)
    (by decide) (by decide) (by decide)
  refine ⟨A', e, (h1 (1, 0, -2) (by decide)).2, (h1 (1, 0, -2) (by decide)).1,
    h2 2 2 (by decide) (by decide) ?_⟩
  intro v
  simp [exSym]

/-- **C27 fails** without room (ELLPACK): a file with more entries in the last row than fit is
written past the end of the arrays. -/
theorem C27_ellpack_overfull :
    (Ell.zeroMatrix 2 1 : Ell Int).readMm fmtInt
      (Mm.fileText fmtInt "general" 2 [(1, 0, 3), (1, 1, 4)]) = .ub :=
  Res.eq_ub_of_isUb (by decide +kernel)

/-- **C27 fails**: the dimension in the file is not compared with the matrix. -/
theorem C27_ellpack_dimension :
    (Ell.zeroMatrix 2 2 : Ell Int).readMm fmtInt
      (Mm.fileText fmtInt "general" 3 [(2, 0, 3)]) = .ub :=
  Res.eq_ub_of_isUb (by decide +kernel)

/-- A header word of 20 characters or more overflows the reader's buffer. -/
theorem C27_long_header_word : (Ell.zeroMatrix 2 2 : Ell Int).readMm fmtInt
    "%%%MatrixMarket matrix coordinate real skew-symmetric-but-long\n2 2 0\n".toList = .ub :=
  Res.eq_ub_of_isUb (by decide +kernel)

/-- A file with fewer entries than its second line announces. -/
def exShort : List Char :=
  "%%%MatrixMarket matrix coordinate real general\n2 2 2\n1 1 5\n".toList

/-- A file that ends early is an error, in every format. -/
theorem C27_truncated_file :
    (Ell.zeroMatrix 2 2 : Ell Int).readMm fmtInt exShort = .error ∧
    (Csr.newZero 2 2 : Csr Int).readMm fmtInt exShort = .error ∧
    (Dense.zeroMatrix 2 : Dense Int).readMm fmtInt exShort = .error ∧
    (newB Int 2 2).readMm fmtInt exShort = .error :=
  ⟨Res.eq_error_of_isError (by decide +kernel), Res.eq_error_of_isError (by decide +kernel),
    Res.eq_error_of_isError (by decide +kernel), Res.eq_error_of_isError (by decide +kernel)⟩

/-! ## CSR -/

omit [CommRing R] in
theorem allowed_new {N : Nat} : ∀ (es : List (Nat × Nat × R)) {S : Nat → Nat → Prop},
    (∀ e ∈ es, e.1 < N ∧ e.2.1 < N ∧ ¬ S e.1 e.2.1) →
    (es.map (fun e => (e.1, e.2.1))).Nodup →
    Allowed N S (es.map fun e => (⟨true, e.1, e.2.1, e.2.2⟩ : Write R)) := by
  intro es
  induction es with
  | nil => intro S _ _; trivial
  | cons e es ih =>
    intro S h hn
    obtain ⟨h1, h2, h3⟩ := h e (by simp)
    simp only [List.map_cons, List.nodup_cons] at hn
    refine ⟨h1, h2, fun _ => h3, ih (fun e' he' => ?_) hn.2⟩
    obtain ⟨r1, r2, r3⟩ := h e' (by simp [he'])
    refine ⟨r1, r2, ?_⟩
    rintro (hS | ⟨hS1, hS2⟩)
    · exact r3 hS
    · exact hn.1 (List.mem_map.2 ⟨e', he', by rw [hS1, hS2]⟩)

theorem csr_writes {N : Nat} {A : Csr R} {a : Spec.Mat R} (hA : A.Represents N a)
    (es : List (Nat × Nat × R)) (hnew : ∀ e ∈ es, e.1 < N ∧ e.2.1 < N ∧ ¬ A.Stored e.1 e.2.1)
    (hdistinct : (es.map (fun e => (e.1, e.2.1))).Nodup) :
    ∃ A', forList es A (fun e A => A.setElementNew e.1 e.2.1 e.2.2) = .ok A' ∧
      A'.Represents N (es.foldl (fun a e => Spec.set a e.1 e.2.1 e.2.2) a) := by
  obtain ⟨A', e, h⟩ := C02_history _ hA (allowed_new es hnew hdistinct)
  rw [List.foldl_map] at h
  refine ⟨A', ?_, h⟩
  rw [← e]
  clear e h hnew hdistinct hA
  induction es generalizing A with
  | nil => rfl
  | cons w es ih =>
    rw [List.map_cons, forList_cons, forList_cons]
    congr 1
    funext A
    exact ih

/-- **C27**, CSR: writing a matrix and reading the file into a zero matrix gives back all elements. -/
theorem C27_csr_round_trip {N : Nat} {A : Csr R} {a : Spec.Mat R} (hA : A.Represents N a)
    {f : Mm.Fmt R} (hk : Mm.Word f.kind) (hv : ∀ i j, i < N → j < N → f.Exact (a i j)) (M : Nat) :
    ∃ file Z, A.writeMm f = .ok file ∧ (Csr.newZero N M).readMm f file = .ok Z ∧
      Z.Represents N a := by
  have hg : ∀ i, i < N → SRow.Good N (A.row i) := fun i hi => by
    have := hA.wf.good (i := i) (by rw [hA.dim]; exact hi)
    rwa [hA.dim] at this
  have hden : ∀ i j, i < N → j < N → (A.row i).den j = a i j := by
    intro i j hi hj
    have := ((Csr.represents_iff.1 hA).holds i hi)
    exact this.2.2 j hj
  have hmem : ∀ e ∈ A.entries, e.1 < N ∧ e.2.1 < N ∧ e.2.2 = a e.1 e.2.1 := by
    rintro ⟨i, j, v⟩ he
    obtain ⟨h1, h2⟩ := Mm.mem_rowEntries.1 he
    rw [hA.dim] at h1
    have hj : j < N := (hg i h1).2 _ h2
    refine ⟨h1, hj, ?_⟩
    simp only
    rw [← hden i j h1 hj, SRow.den_of_mem (hg i h1).1 h2]
  obtain ⟨Z, e, h2⟩ := csr_writes (Csr.represents_iff.2 (Csr.rep_newZero N M)) A.entries
    (fun w hw => ⟨(hmem w hw).1, (hmem w hw).2.1, by
      rintro ⟨k, hk, -⟩
      exact absurd hk (Nat.not_lt_zero _)⟩)
    (Mm.rowEntries_nodup (N := N) (fun i hi => hg i (by rw [← hA.dim]; exact hi)))
  refine ⟨Mm.fileText f "general" A.N A.entries, Z, Csr.writeMm_eq hA.wf f, ?_, ?_⟩
  · rw [Csr.readMm_eq hk word_general _ _ _ (fun e he => by
      obtain ⟨h1, h2, h3⟩ := hmem e he
      rw [h3]
      exact hv _ _ h1 h2)]
    exact e
  · refine h2.congr fun i j hi hj => ?_
    show List.foldl _ (fun _ _ => 0) _ i j = _
    unfold Csr.entries
    rw [hA.dim, Mm.rowEntries_foldl hg hi, hden i j hi hj]

/-- **C27**, a file declared symmetric, CSR. -/
theorem C27_csr_symmetric {N : Nat} {A : Csr R} {a : Spec.Mat R} (hA : A.Represents N a)
    {f : Mm.Fmt R} (hk : Mm.Word f.kind) (n : Nat) (es : List (Nat × Nat × R))
    (hv : ∀ e ∈ es, f.Exact e.2.2)
    (hnew : ∀ e ∈ es.flatMap Mm.mirror, e.1 < N ∧ e.2.1 < N ∧ ¬ A.Stored e.1 e.2.1)
    (hdistinct : ((es.flatMap Mm.mirror).map (fun e => (e.1, e.2.1))).Nodup) :
    ∃ A', A.readMm f (Mm.fileText f "symmetric" n es) = .ok A' ∧
      (∀ e ∈ es, A'.getElement e.1 e.2.1 = .ok e.2.2 ∧ A'.getElement e.2.1 e.1 = .ok e.2.2) ∧
      ∀ i j : Nat, i < N → j < N → (∀ v, (i, j, v) ∉ es ∧ (j, i, v) ∉ es) →
        A'.getElement i j = .ok (a i j) := by
  obtain ⟨A', e, h⟩ := csr_writes hA (es.flatMap Mm.mirror) hnew hdistinct
  obtain ⟨q1, q2⟩ := Mm.foldl_set hdistinct a
  refine ⟨A', ?_, ?_, ?_⟩
  · rw [Csr.readMm_eq hk word_symmetric A n es hv, if_pos rfl]
    exact e
  · intro e he
    obtain ⟨m1, m2⟩ := Mm.mem_mirror he
    obtain ⟨r1, r2, -⟩ := hnew _ m1
    rw [h.get _ _ r1 r2, h.get _ _ r2 r1, q1 _ _ _ m1, q1 _ _ _ m2]
    exact ⟨rfl, rfl⟩
  · intro i j hi hj hno
    rw [h.get i j hi hj, q2]
    exact fun v hin => Mm.not_mem_mirror hno v hin

example : ∃ A', (Csr.newZero 3 3 : Csr Int).readMm fmtInt
      (Mm.fileText fmtInt "symmetric" 3 exSym) = .ok A' ∧
    A'.getElement 0 1 = .ok (-2) ∧ A'.getElement 1 0 = .ok (-2) := by
  obtain ⟨A', e, h1, h2⟩ := C27_csr_symmetric (N := 3)
    (Csr.represents_iff.2 (Csr.rep_newZero 3 3)) fmtInt_kind 3 exSym (fun _ _ => fmtInt_exact _)
    (by decide) (by decide)
  exact ⟨A', e, (h1 (1, 0, -2) (by decide)).2, (h1 (1, 0, -2) (by decide)).1⟩

example : ∃ file Z, exC.writeMm fmtInt = .ok file ∧
    (Csr.newZero 2 3).readMm fmtInt file = .ok Z ∧ Z.Represents 2 exCm :=
  C27_csr_round_trip exC_rep fmtInt_kind (fun _ _ _ _ => fmtInt_exact _) 3

/-! ## Dense -/

omit [CommRing R] in
theorem dense_writes {N : Nat} (es : List (Nat × Nat × R)) : ∀ {A : Dense R} {a : Spec.Mat R},
    A.Represents N a → (∀ e ∈ es, e.1 < N ∧ e.2.1 < N) →
    ∃ A', forList es A (fun e A => A.setElement e.1 e.2.1 e.2.2) = .ok A' ∧
      A'.Represents N (es.foldl (fun a e => Spec.set a e.1 e.2.1 e.2.2) a) := by
  induction es with
  | nil => intro A a hA _; exact ⟨A, rfl, hA⟩
  | cons e es ih =>
    intro A a hA h
    obtain ⟨h1, h2⟩ := h e (by simp)
    obtain ⟨A', e', h'⟩ := Res.wp_exists (Dense.wp_setElement (E := False)
      (Dense.represents_iff.1 hA) h1 h2 e.2.2)
    obtain ⟨A'', e'', h''⟩ := ih (Dense.represents_iff.2 h') (fun e he => h e (by simp [he]))
    exact ⟨A'', by rw [forList_cons, e', Res.bind_ok]; exact e'', h''⟩

/-- **C27**, dense: writing a matrix and reading the file into a zero matrix gives back all elements.
`nz v` is the test `|v| > 0`. -/
theorem C27_dense_round_trip {N : Nat} {A : Dense R} {a : Spec.Mat R} (hA : A.Represents N a)
    {f : Mm.Fmt R} (hk : Mm.Word f.kind) (hv : ∀ i j, i < N → j < N → f.Exact (a i j))
    {nz : R → Bool} (hnz : ∀ v, nz v = false → v = 0) :
    ∃ file Z, A.writeMm f nz = .ok file ∧ (Dense.zeroMatrix N).readMm f file = .ok Z ∧
      Z.Represents N a := by
  have hR := Dense.represents_iff.1 hA
  have hmem : ∀ e, e ∈ A.entries nz ↔ ∃ i j, i < N ∧ j < N ∧ nz (a i j) = true ∧
      e = (i, j, a i j) := by
    rintro ⟨i, j, v⟩
    unfold Dense.entries
    rw [Mm.mem_rowEntries, hR.dim]
    simp only [SRow.ofCols, List.mem_map, List.mem_filter, List.mem_range, Prod.mk.injEq]
    constructor
    · rintro ⟨h1, c, ⟨h2, h3⟩, rfl, rfl⟩
      rw [hR.get i c h1 h2] at h3 ⊢
      exact ⟨i, c, h1, h2, h3, rfl, rfl, rfl⟩
    · rintro ⟨i', j', h1, h2, h3, rfl, rfl, rfl⟩
      rw [← hR.get i j h1 h2] at h3 ⊢
      exact ⟨h1, j, ⟨h2, h3⟩, rfl, rfl⟩
  have hz : (Dense.zeroMatrix N : Dense R).Represents N (fun _ _ => 0) :=
    Dense.represents_iff.2 ⟨rfl, rfl, fun _ _ _ _ => rfl⟩
  obtain ⟨Z, e, h2⟩ := dense_writes (A.entries nz) hz (fun e he => by
    obtain ⟨i, j, h1, h2, -, rfl⟩ := (hmem e).1 he
    exact ⟨h1, h2⟩)
  refine ⟨Mm.fileText f "general" A.N (A.entries nz), Z,
    Dense.writeMm_eq (by rw [hR.size, hR.dim]) f nz, ?_, ?_⟩
  · rw [Dense.readMm_eq hk word_general _ _ _ (fun e he => by
      obtain ⟨i, j, h1, h2, -, rfl⟩ := (hmem e).1 he
      exact hv _ _ h1 h2)]
    exact e
  · refine Dense.represents_iff.2 ((Dense.represents_iff.1 h2).congr fun i j hi hj => ?_)
    rw [Mm.foldl_agree (a := a) (fun e he => by
      obtain ⟨i, j, h1, h2, -, rfl⟩ := (hmem e).1 he
      rfl)]
    split
    · rfl
    · next hno =>
      symm
      apply hnz
      by_contra hb
      exact hno ⟨a i j, (hmem _).2 ⟨i, j, hi, hj, by simpa using hb, rfl⟩⟩

example : ∃ file Z, (⟨2, ⟨4, fun k => if k = 2 then 0 else (k : Int) + 1⟩⟩ : Dense Int).writeMm fmtInt
      (fun v => decide (v ≠ 0)) = .ok file ∧
    (Dense.zeroMatrix 2).readMm fmtInt file = .ok Z ∧
    Z.Represents 2 (fun i j => if i * 2 + j = 2 then 0 else ((i * 2 + j : Nat) : Int) + 1) :=
  C27_dense_round_trip (Dense.represents_iff.2 ⟨rfl, rfl, fun _ _ _ _ => rfl⟩) fmtInt_kind
    (fun _ _ _ _ => fmtInt_exact _) (by simp)

/-- **C27 fails for dense matrices**: a file declared symmetric is read as if it were general; the
mirrored elements stay zero. -/
theorem C27_dense_symmetric_ignored :
    ∃ Z, (Dense.zeroMatrix 3 : Dense Int).readMm fmtInt
        (Mm.fileText fmtInt "symmetric" 3 exSym) = .ok Z ∧
      Z.getElement 1 0 = .ok (-2) ∧ Z.getElement 0 1 = .ok 0 := by
  have hz : (Dense.zeroMatrix 3 : Dense Int).Represents 3 (fun _ _ => 0) :=
    Dense.represents_iff.2 ⟨rfl, rfl, fun _ _ _ _ => rfl⟩
  obtain ⟨Z, e, h⟩ := dense_writes exSym hz (by decide)
  refine ⟨Z, ?_, h.get 1 0 (by decide) (by decide), h.get 0 1 (by decide) (by decide)⟩
  rw [Dense.readMm_eq fmtInt_kind word_symmetric _ _ _ (fun _ _ => fmtInt_exact _)]
  exact e

/-! ## Block-ELLPACK -/

/-- **C27**, block-ELLPACK: writing a matrix and reading the file into an empty matrix with the same
blocks gives back all elements. -/
theorem C27_ellblock_round_trip {N : Nat} {A Z : EllB R} {a : Spec.Mat R} (hN : 0 < N)
    (hA : A.Represents N a) (hZ : Z.Represents N (fun _ _ => 0)) (hC : Z.Clean)
    (hempty : ∀ ib, ib < Z.NB → Z.nnzb.get ib = 0) (hNB : Z.NB = A.NB) (hbs : Z.bsize = A.bsize)
    (hroom : ∀ ib, ib < A.NB → A.nnzb.get ib ≤ Z.MB) (hb0 : A.bsize.get 0 < 1000000)
    {f : Mm.Fmt R} (hk : Mm.Word f.kind) (hv : ∀ i j, i < N → j < N → f.Exact (a i j)) :
    ∃ file Z', A.writeMm f = .ok file ∧ Z.readMm f file = .ok Z' ∧ Z'.Clean ∧
      Z'.Represents N a ∧ EllB.Same Z Z' := by
  obtain ⟨L, h⟩ := EllB.represents_iff.1 hA
  obtain ⟨LZ, hz⟩ := EllB.represents_iff.1 hZ
  have hmem : ∀ e ∈ EllB.fileEntries A.bsize.get A.NB L, e.1 < N ∧ e.2.1 < N := by
    intro e he
    obtain ⟨ib, jb, b, ii, jj, h1, h2, h3, h4, rfl⟩ := EllB.mem_fileEntries.1 he
    have l1 := EllB.off_lt h1 h3
    have l2 := EllB.off_lt ((h.good ib h1).lt _ h2) h4
    rw [h.N_eq] at l1 l2
    exact ⟨l1, l2⟩
  obtain ⟨Z', e, c1, c2, L', c3⟩ := EllB.setElements_room (N := N) (R := R)
    (fun Z i j v => Z.mmSet i j v) (fun Z Z' LZ z i j v h hi hj hs => h.mmSet_eq hi hj hs)
    (fun ib => if ib < A.NB then (L ib).map Prod.fst else []) (by
      intro ib
      split
      · next hib => exact (h.good ib hib).nodup
      · exact List.nodup_nil) (bs := A.bsize.get) (NB := A.NB) (MB := Z.MB) (by
      intro ib hib
      rw [if_pos hib, List.length_map, ← h.is.nz ib hib]
      exact hroom ib hib) (EllB.fileEntries A.bsize.get A.NB L) hz hC hNB rfl (by rw [hbs]) (by
      intro ib hib p hp
      have := hempty ib (by rw [hNB]; exact hib)
      rw [hz.is.nz ib (by rw [hNB]; exact hib)] at this
      rw [List.length_eq_zero_iff.1 this] at hp
      exact absurd hp (by simp)) (by
      intro w hw
      obtain ⟨ib, jb, b, ii, jj, h1, h2, h3, h4, rfl⟩ := EllB.mem_fileEntries.1 hw
      refine ⟨ib, ii, jb, jj, h1, h3, (h.good ib h1).lt _ h2, h4, ?_, rfl, rfl⟩
      rw [if_pos h1]
      exact List.mem_map.2 ⟨_, h2, rfl⟩)
  refine ⟨_, Z', h.writeMm_eq hN f, ?_, c1, EllB.represents_iff.2 ⟨L', c3.congr ?_⟩, c2⟩
  · rw [EllB.readMm_eq hk word_general (by decide) (by
      rw [hz.is.bs_size, hNB]; exact h.NB_pos hN) (by rw [hbs]; exact hb0) N _ (fun e he => by
      obtain ⟨r1, r2⟩ := hmem e he
      rw [h.fileEntries_agree e he]
      exact hv _ _ r1 r2)]
    exact e
  · intro i j hi hj
    rw [Mm.foldl_agree h.fileEntries_agree]
    split
    · rfl
    · next hno => exact (h.fileEntries_zero hi hj hno).symm

/-- The `5 × 5` matrix with blocks of 4 and 1. -/
example : ∃ file Z', ebA.writeMm fmtInt = .ok file ∧ (newB Int 5 5).readMm fmtInt file = .ok Z' ∧
    Z'.Clean ∧ Z'.Represents 5 ebAm := by
  obtain ⟨h1, h2, h3, -⟩ := newB_spec (R := Int) (N := 5) (M := 5) le_rfl (by decide)
  obtain ⟨file, Z', e1, e2, h4, h5, -⟩ := C27_ellblock_round_trip (by decide) ebA_spec.1 h1 h2 (by decide)
    (by decide) rfl (by decide) (by decide) fmtInt_kind (fun _ _ _ _ => fmtInt_exact _)
  exact ⟨file, Z', e1, e2, h4, h5⟩

/-- **C27 fails for block-ELLPACK**: reading a file declared symmetric whose mirrored entry falls into
a block that is not stored dereferences a null pointer. -/
theorem C27_ellblock_symmetric_null : (newB Int 5 5).readMm fmtInt
    (Mm.fileText fmtInt "symmetric" 5 [(4, 1, 3)]) = .ub :=
  Res.eq_ub_of_isUb (by decide +kernel)

/-- **C27 fails for block-ELLPACK**: entries with the same position inside their blocks are not
mirrored. -/
theorem C27_ellblock_symmetric_lost :
    (do let Z ← (newB Int 5 5).readMm fmtInt (Mm.fileText fmtInt "symmetric" 5 [(4, 0, 3)])
        let x ← Z.getElement 4 0
        let y ← Z.getElement 0 4
        pure (x, y)) = .ok (3, 0) := by decide +kernel

end Bml.Props
