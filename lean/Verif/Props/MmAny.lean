import Verif.Common.MmAny
import Verif.Props.MatrixMarket

/-!
# C78: reading any file
-/

namespace Bml.Props

variable {R : Type} [CommRing R]

/-- **C78**, a malformed header or second line is an error in all formats. -/
theorem C78_bad_header {f : Mm.Fmt R} {file : List Char} (h : Mm.contents f file = .error) (D : Dense R)
    (E : Ell R) (C : Csr R) : D.readMm f file = .error ∧ E.readMm f file = .error ∧ C.readMm f file = .error := by
  unfold Dense.readMm Ell.readMm Csr.readMm
  rw [Mm.readWith_eq, Mm.readWith_eq, Mm.readWith_eq, h]
  exact ⟨rfl, rfl, rfl⟩

omit [CommRing R] in
/-- **C78**, dense: any file with entries in range.  If all announced entries are there, they are set, in
order, so that the last of several at one position remains; else it is an error. -/
theorem C78_dense {N : Nat} {A : Dense R} {a : Spec.Mat R} (hA : A.Represents N a) {f : Mm.Fmt R}
    {file : List Char} {sym c : Bool} {es : List (Int × Int × R)} (h : Mm.contents f file = .ok (sym, es, c))
    (hr : Mm.InRange N es) :
    if c then ∃ A', A.readMm f file = .ok A' ∧
        A'.Represents N ((Mm.nats es).foldl (fun a e => Spec.set a e.1 e.2.1 e.2.2) a)
      else A.readMm f file = .error := by
  obtain ⟨A', e, hA'⟩ := dense_writes (Mm.nats es) hA (Mm.nats_range hr)
  have key : A.readMm f file = if c then .ok A' else .error := by
    unfold Dense.readMm
    rw [Mm.readWith_eq, h, Res.bind_ok]
    simp only
    rw [Mm.forList_nats hr A fun i j v A => A.setElement i j v, e]
    rfl
  rw [key]
  cases c
  · rfl
  · exact ⟨A', rfl, hA'⟩

/-- The elements a file asks to be set: its entries and, if it is declared symmetric, their mirror images. -/
def Asked (sym : Bool) (es : List (Int × Int × R)) : List (Nat × Nat × R) :=
  if sym then (Mm.nats es).flatMap Mm.mirror else Mm.nats es

omit [CommRing R] in
theorem asked_range {N : Nat} {es : List (Int × Int × R)} (hr : Mm.InRange N es) (sym : Bool) :
    ∀ e ∈ Asked sym es, e.1 < N ∧ e.2.1 < N := by
  unfold Asked
  cases sym
  · exact Mm.nats_range hr
  rw [if_pos rfl]
  intro e he
  obtain ⟨x, hx, he⟩ := List.mem_flatMap.1 he
  obtain ⟨h1, h2⟩ := Mm.nats_range hr x hx
  unfold Mm.mirror at he
  split at he <;> simp only [List.mem_cons, List.not_mem_nil, or_false] at he
  · subst he
    exact ⟨h1, h2⟩
  · rcases he with rfl | rfl
    · exact ⟨h1, h2⟩
    · exact ⟨h2, h1⟩

omit [CommRing R] in
theorem forList_asked {σ : Type} {N : Nat} {es : List (Int × Int × R)} (hr : Mm.InRange N es) (sym : Bool)
    (op : Int → Int → R → σ → Res σ) (s : σ) :
    (forList es s fun e s => do
        let s ← op e.1 e.2.1 e.2.2 s
        if sym ∧ e.2.1 ≠ e.1 then op e.2.1 e.1 e.2.2 s else pure s) =
      forList (Asked sym es) s fun e s => op (e.1 : Int) (e.2.1 : Int) e.2.2 s := by
  rw [Mm.forList_nats hr s fun i j v s => do
    let s ← op i j v s
    if sym ∧ j ≠ i then op j i v s else pure s]
  unfold Asked
  cases sym
  · simp only [Bool.false_eq_true, false_and, if_false, bind_pure]
  · rw [if_pos rfl, ← Mm.forList_mirror (fun s i j v => op (i : Int) (j : Int) v s)]
    simp only [true_and, ne_eq, Int.natCast_inj]

/-- **C78**, ELLPACK: any file with entries in range at distinct positions that are not stored yet and fit
into the rows. -/
theorem C78_ellpack {N : Nat} {A : Ell R} {a : Spec.Mat R} (hA : A.Represents N a) {f : Mm.Fmt R}
    {file : List Char} {sym c : Bool} {es : List (Int × Int × R)} (h : Mm.contents f file = .ok (sym, es, c))
    (hr : Mm.InRange N es) (hnew : ∀ e ∈ Asked sym es, ¬ A.Stored e.1 e.2.1)
    (hdistinct : ((Asked sym es).map fun e => (e.1, e.2.1)).Nodup)
    (hroom : ∀ i, i < N → A.nnz.get i + ((Asked sym es).filter fun e => e.1 = i).length ≤ A.M) :
    if c then ∃ A', A.readMm f file = .ok A' ∧ A'.M = A.M ∧
        A'.Represents N ((Asked sym es).foldl (fun a e => Spec.set a e.1 e.2.1 e.2.2) a)
      else A.readMm f file = .error := by
  have hr' := asked_range hr sym
  obtain ⟨A', e, h1, hA'⟩ := C01_set_element_new hA (Asked sym es)
    (fun e he => ⟨(hr' e he).1, (hr' e he).2, hnew e he⟩) hdistinct hroom
  have key : A.readMm f file = if c then .ok A' else .error := by
    unfold Ell.readMm
    rw [Mm.readWith_eq, h, Res.bind_ok]
    simp only
    rw [forList_asked hr sym fun i j v (A : Ell R) => A.appendInt i j v]
    simp only [Ell.appendInt_nat]
    rw [e]
    rfl
  rw [key]
  cases c
  · rfl
  · exact ⟨A', rfl, h1, hA'⟩

/-- **C78**, CSR: the same without a bound on the rows. -/
theorem C78_csr {N : Nat} {A : Csr R} {a : Spec.Mat R} (hA : A.Represents N a) {f : Mm.Fmt R}
    {file : List Char} {sym c : Bool} {es : List (Int × Int × R)} (h : Mm.contents f file = .ok (sym, es, c))
    (hr : Mm.InRange N es) (hnew : ∀ e ∈ Asked sym es, ¬ A.Stored e.1 e.2.1)
    (hdistinct : ((Asked sym es).map fun e => (e.1, e.2.1)).Nodup) :
    if c then ∃ A', A.readMm f file = .ok A' ∧
        A'.Represents N ((Asked sym es).foldl (fun a e => Spec.set a e.1 e.2.1 e.2.2) a)
      else A.readMm f file = .error := by
  have hr' := asked_range hr sym
  obtain ⟨A', e, hA'⟩ := csr_writes hA (Asked sym es)
    (fun e he => ⟨(hr' e he).1, (hr' e he).2, hnew e he⟩) hdistinct
  have key : A.readMm f file = if c then .ok A' else .error := by
    unfold Csr.readMm
    rw [Mm.readWith_eq, h, Res.bind_ok]
    simp only
    rw [forList_asked hr sym fun i j v (A : Csr R) => A.appendInt i j v]
    simp only [Csr.appendInt_nat]
    rw [e]
    rfl
  rw [key]
  cases c
  · rfl
  · exact ⟨A', rfl, hA'⟩

/-! ## Texts in any layout -/

omit [CommRing R] in
theorem nats_cast (es : List (Nat × Nat × R)) :
    Mm.nats (es.map fun e => ((e.1 : Int), (e.2.1 : Int), e.2.2)) = es := by
  unfold Mm.nats
  rw [List.map_map]
  exact (List.map_congr_left fun e _ => rfl).trans (List.map_id es)

omit [CommRing R] in
theorem inRange_cast {N : Nat} {es : List (Nat × Nat × R)} (h : ∀ e ∈ es, e.1 < N ∧ e.2.1 < N) :
    Mm.InRange N (es.map fun e => ((e.1 : Int), (e.2.1 : Int), e.2.2)) := by
  intro e he
  obtain ⟨x, hx, rfl⟩ := List.mem_map.1 he
  obtain ⟨h1, h2⟩ := h x hx
  simp only
  omega

omit [CommRing R] in
/-- **C78**, dense: a text with five words, two numbers, the number of entries and the entries, with any
blanks between them and anything after them, however the values are written. -/
theorem C78_dense_text {N : Nat} {A : Dense R} {a : Spec.Mat R} (hA : A.Represents N a) {f : Mm.Fmt R}
    {sym : String} {es : List (Nat × Nat × R)} {file : List Char} (h : Mm.FileText f sym es file)
    (hr : ∀ e ∈ es, e.1 < N ∧ e.2.1 < N) : ∃ A', A.readMm f file = .ok A' ∧
      A'.Represents N (es.foldl (fun a e => Spec.set a e.1 e.2.1 e.2.2) a) := by
  have := C78_dense hA (Mm.contents_eq h) (inRange_cast hr)
  rwa [if_pos rfl, nats_cast] at this

/-- **C78**, ELLPACK: the same, with the mirror images if the fifth word is `symmetric`. -/
theorem C78_ellpack_text {N : Nat} {A : Ell R} {a : Spec.Mat R} (hA : A.Represents N a) {f : Mm.Fmt R}
    {sym : String} {es ws : List (Nat × Nat × R)} {file : List Char} (h : Mm.FileText f sym es file)
    (hws : ws = if sym = "symmetric" then es.flatMap Mm.mirror else es)
    (hr : ∀ e ∈ es, e.1 < N ∧ e.2.1 < N) (hnew : ∀ e ∈ ws, ¬ A.Stored e.1 e.2.1)
    (hdistinct : (ws.map fun e => (e.1, e.2.1)).Nodup)
    (hroom : ∀ i, i < N → A.nnz.get i + (ws.filter fun e => e.1 = i).length ≤ A.M) :
    ∃ A', A.readMm f file = .ok A' ∧ A'.M = A.M ∧
      A'.Represents N (ws.foldl (fun a e => Spec.set a e.1 e.2.1 e.2.2) a) := by
  have e : Asked (decide (sym = "symmetric")) (es.map fun e => ((e.1 : Int), (e.2.1 : Int), e.2.2)) = ws := by
    rw [hws, Asked, nats_cast]
    simp only [decide_eq_true_eq]
  have := C78_ellpack hA (Mm.contents_eq h) (inRange_cast hr) (by rwa [e]) (by rwa [e]) (by rwa [e])
  rwa [if_pos rfl, e] at this

/-- **C78**, CSR. -/
theorem C78_csr_text {N : Nat} {A : Csr R} {a : Spec.Mat R} (hA : A.Represents N a) {f : Mm.Fmt R}
    {sym : String} {es ws : List (Nat × Nat × R)} {file : List Char} (h : Mm.FileText f sym es file)
    (hws : ws = if sym = "symmetric" then es.flatMap Mm.mirror else es)
    (hr : ∀ e ∈ es, e.1 < N ∧ e.2.1 < N) (hnew : ∀ e ∈ ws, ¬ A.Stored e.1 e.2.1)
    (hdistinct : (ws.map fun e => (e.1, e.2.1)).Nodup) :
    ∃ A', A.readMm f file = .ok A' ∧
      A'.Represents N (ws.foldl (fun a e => Spec.set a e.1 e.2.1 e.2.2) a) := by
  have e : Asked (decide (sym = "symmetric")) (es.map fun e => ((e.1 : Int), (e.2.1 : Int), e.2.2)) = ws := by
    rw [hws, Asked, nats_cast]
    simp only [decide_eq_true_eq]
  have := C78_csr hA (Mm.contents_eq h) (inRange_cast hr) (by rwa [e]) (by rwa [e])
  rwa [if_pos rfl, e] at this

/-- A text with tabulators, line ends at odd places, a number with a leading zero and a comment at the end. -/
def exOdd : List Char := "%%M matrix\tcoordinate\n\nreal symmetric 3 3\n2 1\n3 07   2 2\t4 # end".toList

/-- Digits, with or without leading zeros, are a way to write a whole number. -/
theorem fmtInt_writes {t : List Char} (h : t ≠ []) (hd : ∀ c ∈ t, c.isDigit = true) :
    fmtInt.Writes t (Nat.ofDigitChars 10 t 0) := by
  intro b s hb hs
  show Mm.scanInt _ = _
  have hskip : ∀ b : List Char, (∀ c ∈ b, Mm.isWs c = true) → Mm.scanInt (b ++ (t ++ s)) = Mm.scanInt (t ++ s) := by
    intro b
    induction b with
    | nil => intro _; rfl
    | cons c b ih =>
      intro h
      rw [List.cons_append, Mm.scanInt_ws (h c (by simp))]
      exact ih fun c hc => h c (by simp [hc])
  rw [hskip b hb.2]
  obtain ⟨h1, h2⟩ := Mm.takeWhile_stop (p := Char.isDigit) (w := t) (rest := s) hd hs.not_digit
  have hsg : Mm.scanSign (Mm.skipWs (t ++ s)) = (false, t ++ s) := by
    cases t with
    | nil => exact absurd rfl h
    | cons c t =>
      have hc : c.isDigit = true := hd c (by simp)
      have : Mm.skipWs (c :: t ++ s) = c :: (t ++ s) := by simp [Mm.skipWs, Mm.digit_not_ws hc]
      rw [this, Mm.scanSign_digit hc]
      rfl
  unfold Mm.scanInt
  simp only [hsg, h1, h2]
  rw [if_neg h]
  simp

theorem exOdd_text : Mm.FileText fmtInt "symmetric" [(0, 2, 7), (1, 1, 4)] exOdd := by
  have w : ∀ t : String, t.toList ≠ [] → (∀ c ∈ t.toList, Mm.isWs c = false) → t.toList.length < 20 → Mm.Word t :=
    fun t h1 h2 h3 => ⟨h1, h2, h3⟩
  have g : ∀ t : List Char, t ≠ [] → (∀ c ∈ t, Mm.isWs c = true) → Mm.Gap t := fun t h1 h2 => ⟨h1, h2⟩
  have h2 : Mm.EntriesText fmtInt [(1, 1, 4)] "   2 2\t4 # end".toList :=
    Mm.EntriesText.cons (b1 := "   ".toList) (b2 := " ".toList) (b3 := "\t".toList) (t := "4".toList)
      (g _ (by decide) (by decide)) (g _ (by decide) (by decide)) (g _ (by decide) (by decide))
      (fmtInt_writes (by decide) (by decide)) (.nil (s := " # end".toList) (fun c h => by
        simp at h
        subst h
        decide))
  have h1 : Mm.EntriesText fmtInt [(0, 2, 7), (1, 1, 4)] " 1\n3 07   2 2\t4 # end".toList :=
    Mm.EntriesText.cons (b1 := " ".toList) (b2 := "\n".toList) (b3 := " ".toList) (t := "07".toList)
      (g _ (by decide) (by decide)) (g _ (by decide) (by decide)) (g _ (by decide) (by decide))
      (fmtInt_writes (by decide) (by decide)) h2
  exact Mm.FileText.mk (w1 := "%%M") (w2 := "matrix") (w3 := "coordinate") (w4 := "real") (sym := "symmetric")
    (n := 3) (m := 3) (b2 := " ".toList) (b3 := "\t".toList) (b4 := "\n\n".toList) (b5 := " ".toList)
    (b6 := " ".toList) (b7 := " ".toList) (b8 := "\n".toList)
    (w _ (by decide) (by decide) (by decide)) (w _ (by decide) (by decide) (by decide))
    (w _ (by decide) (by decide) (by decide)) (w _ (by decide) (by decide) (by decide))
    (w _ (by decide) (by decide) (by decide))
    (g _ (by decide) (by decide)) (g _ (by decide) (by decide)) (g _ (by decide) (by decide))
    (g _ (by decide) (by decide)) (g _ (by decide) (by decide)) (g _ (by decide) (by decide))
    (g _ (by decide) (by decide)) h1

example : ∃ A', (Dense.zeroMatrix 3 : Dense Int).readMm fmtInt exOdd = .ok A' ∧
    A'.Represents 3 (Spec.set (Spec.set Spec.zero 0 2 7) 1 1 4) :=
  C78_dense_text (Dense.represents_iff.2 (Dense.zero_rep 3)) exOdd_text (by decide)

example : ∃ A', (Ell.zeroMatrix 3 2 : Ell Int).readMm fmtInt exOdd = .ok A' ∧ A'.M = 2 ∧
    A'.Represents 3 (Spec.set (Spec.set (Spec.set (fun _ _ => 0) 0 2 7) 2 0 7) 1 1 4) :=
  C78_ellpack_text (ws := [(0, 2, 7), (2, 0, 7), (1, 1, 4)]) (Ell.represents_iff.2 (Ell.zero_rep 3 2)) exOdd_text
    (by decide) (by decide)
    (fun e _ => by
      rintro ⟨k, hk, -⟩
      exact absurd hk (Nat.not_lt_zero _)) (by decide) (by decide)

example : ∃ A', (Csr.newZero 3 2 : Csr Int).readMm fmtInt exOdd = .ok A' ∧
    A'.Represents 3 (Spec.set (Spec.set (Spec.set Spec.zero 0 2 7) 2 0 7) 1 1 4) :=
  C78_csr_text (ws := [(0, 2, 7), (2, 0, 7), (1, 1, 4)]) (Csr.represents_iff.2 (Csr.rep_newZero 3 2)) exOdd_text
    (by decide) (by decide)
    (fun e _ => by
      rintro ⟨k, hk, -⟩
      exact absurd hk (Nat.not_lt_zero _)) (by decide)

/-! ## Files the library did not write -/

/-- Free form: five words in any layout, then numbers in any layout, text after the last entry. -/
def exFree : List Char := "%%MatrixMarket matrix\tcoordinate\nreal general  3 3\n2 1\n3 7   2 1\n -4 and so on".toList

/-- Declared symmetric. -/
def exFreeSym : List Char := "a b c d symmetric 3 3 3 1 3 7 2 1 -4 2 2 5".toList

theorem exFree_contents : Mm.contents fmtInt exFree = .ok (false, [(0, 2, 7), (1, 0, -4)], true) := by
  decide +kernel

theorem exFreeSym_contents :
    Mm.contents fmtInt exFreeSym = .ok (true, [(0, 2, 7), (1, 0, -4), (1, 1, 5)], true) := by
  decide +kernel

example : ∃ A', (Dense.zeroMatrix 3 : Dense Int).readMm fmtInt exFree = .ok A' ∧
    A'.Represents 3 (Spec.set (Spec.set Spec.zero 0 2 7) 1 0 (-4)) := by
  have := C78_dense (N := 3) (Dense.represents_iff.2 (Dense.zero_rep 3)) exFree_contents (by decide)
  simpa [Mm.nats] using this

example : ∃ A', (Ell.zeroMatrix 3 3 : Ell Int).readMm fmtInt exFreeSym = .ok A' ∧ A'.M = 3 ∧
    A'.Represents 3 ((Asked true [((0 : Int), (2 : Int), (7 : Int)), (1, 0, -4), (1, 1, 5)]).foldl
      (fun a e => Spec.set a e.1 e.2.1 e.2.2) (fun _ _ => 0)) := by
  have := C78_ellpack (N := 3) (Ell.represents_iff.2 (Ell.zero_rep 3 3)) exFreeSym_contents (by decide)
    (fun e _ => by
      rintro ⟨k, hk, -⟩
      exact absurd hk (Nat.not_lt_zero _)) (by decide) (by decide)
  rwa [if_pos rfl] at this

example : ∃ A', (Csr.newZero 3 3 : Csr Int).readMm fmtInt exFreeSym = .ok A' ∧
    A'.Represents 3 ((Asked true [((0 : Int), (2 : Int), (7 : Int)), (1, 0, -4), (1, 1, 5)]).foldl
      (fun a e => Spec.set a e.1 e.2.1 e.2.2) (fun _ _ => 0)) := by
  have := C78_csr (N := 3) (Csr.represents_iff.2 (Csr.rep_newZero 3 3)) exFreeSym_contents (by decide)
    (fun e _ => by
      rintro ⟨k, hk, -⟩
      exact absurd hk (Nat.not_lt_zero _)) (by decide)
  rwa [if_pos rfl] at this

/-- A word where a number belongs. -/
example : (Dense.zeroMatrix 2 : Dense Int).readMm fmtInt "a b c d e 2 2 x".toList = .error ∧
    (Ell.zeroMatrix 2 2 : Ell Int).readMm fmtInt "a b c d e 2 2 x".toList = .error ∧
    (Csr.newZero 2 2 : Csr Int).readMm fmtInt "a b c d e 2 2 x".toList = .error :=
  C78_bad_header (by decide +kernel) _ _ _

/-- A malformed entry: what is before it is not lost before the error. -/
example : (Dense.zeroMatrix 2 : Dense Int).readMm fmtInt "a b c d e 2 2 2 1 1 5 1 x".toList = .error := by
  have := C78_dense (N := 2) (f := fmtInt) (file := "a b c d e 2 2 2 1 1 5 1 x".toList) (sym := false)
    (c := false) (es := [(0, 0, 5)]) (Dense.represents_iff.2 (Dense.zero_rep (R := Int) 2)) (by decide +kernel) (by decide)
  simpa using this

/-! ## Where the full claim fails -/

omit [CommRing R] in
/-- **C78 fails**, dense: an entry whose position lies outside of the array, after any entries in range, is
stored outside of it. -/
theorem C78_dense_outside {N : Nat} {A : Dense R} {a : Spec.Mat R} (hA : A.Represents N a) {f : Mm.Fmt R}
    {file : List Char} {sym c : Bool} {es rest : List (Int × Int × R)} {i j : Int} {v : R}
    (h : Mm.contents f file = .ok (sym, es ++ (i, j, v) :: rest, c)) (hr : Mm.InRange N es)
    (hout : i * N + j < 0 ∨ (N : Int) * N ≤ i * N + j) : A.readMm f file = .ub := by
  obtain ⟨A', e, hA'⟩ := dense_writes (Mm.nats es) hA (Mm.nats_range hr)
  unfold Dense.readMm
  rw [Mm.readWith_eq, h, Res.bind_ok]
  simp only
  rw [forList_append, Mm.forList_nats hr A fun i j v A => A.setElement i j v, e, Res.bind_ok, forList_cons]
  have : A'.setElement i j v = .ub := by
    unfold Dense.setElement Dense.writeInt
    rw [hA'.dim]
    by_cases h0 : i * N + j < 0
    · rw [if_pos h0]
      rfl
    · rw [if_neg h0, Arr.write_ub]
      · rfl
      · rw [hA'.size]
        have := hout.resolve_left h0
        zify
        omega
  simp only [this]
  rfl

/-- **C78 fails**, ELLPACK: an entry in a row outside of the matrix, after any entries as in `C78_ellpack`. -/
theorem C78_ellpack_outside {N : Nat} {A : Ell R} {a : Spec.Mat R} (hA : A.Represents N a) {f : Mm.Fmt R}
    {file : List Char} {sym c : Bool} {es rest : List (Int × Int × R)} {i j : Int} {v : R}
    (h : Mm.contents f file = .ok (sym, es ++ (i, j, v) :: rest, c)) (hr : Mm.InRange N es)
    (hnew : ∀ e ∈ Asked sym es, ¬ A.Stored e.1 e.2.1)
    (hdistinct : ((Asked sym es).map fun e => (e.1, e.2.1)).Nodup)
    (hroom : ∀ i, i < N → A.nnz.get i + ((Asked sym es).filter fun e => e.1 = i).length ≤ A.M)
    (hout : i < 0 ∨ N ≤ i) : A.readMm f file = .ub := by
  have hr' := asked_range hr sym
  obtain ⟨A', e, h1, hA'⟩ := C01_set_element_new hA (Asked sym es)
    (fun e he => ⟨(hr' e he).1, (hr' e he).2, hnew e he⟩) hdistinct hroom
  unfold Ell.readMm
  rw [Mm.readWith_eq, h, Res.bind_ok]
  simp only
  rw [forList_append, forList_asked hr sym fun i j v (A : Ell R) => A.appendInt i j v]
  simp only [Ell.appendInt_nat]
  rw [e, Res.bind_ok, forList_cons]
  have hR := Ell.represents_iff.1 hA'
  have : A'.appendInt i j v = .ub := by
    unfold Ell.appendInt
    by_cases h0 : i < 0 ∨ j < 0
    · rw [if_pos h0]
    · rw [if_neg h0, Arr.read_ub]
      · rfl
      · rw [hR.shape.nnz_size, hR.dim]
        omega
  simp only [this]
  rfl

/-- A file for a larger matrix. -/
def exFar : List Char := "a b c d general 9 9 2 1 1 5 1 7 4".toList

/-- One position twice. -/
def exTwice : List Char := "a b c d general 2 2 2 1 1 5 1 1 4".toList

example : (Dense.zeroMatrix 2 : Dense Int).readMm fmtInt exFar = .ub :=
  C78_dense_outside (N := 2) (sym := false) (c := true) (es := [(0, 0, 5)]) (i := 0) (j := 6) (v := 4) (rest := [])
    (Dense.represents_iff.2 (Dense.zero_rep 2)) (by decide +kernel) (by decide) (by decide)

example : (Ell.zeroMatrix 3 3 : Ell Int).readMm fmtInt "a b c d general 9 9 2 1 1 5 7 1 4".toList = .ub :=
  C78_ellpack_outside (N := 3) (sym := false) (c := true) (es := [(0, 0, 5)]) (i := 6) (j := 0) (v := 4)
    (rest := []) (Ell.represents_iff.2 (Ell.zero_rep 3 3)) (by decide +kernel) (by decide)
    (fun e _ => by
      rintro ⟨k, hk, -⟩
      exact absurd hk (Nat.not_lt_zero _)) (by decide) (by decide) (by decide)

/-- **C78 fails**, dense: a column beyond the matrix is stored in the next row. -/
theorem C78_dense_wraps : ∃ A' : Dense Int,
    (Dense.zeroMatrix 3).readMm fmtInt "a b c d general 9 9 1 1 5 8".toList = .ok A' ∧
      A'.getElement 1 1 = .ok 8 := by
  obtain ⟨A', e, h⟩ := Res.exists_okAnd (r := (Dense.zeroMatrix 3 : Dense Int).readMm fmtInt
    "a b c d general 9 9 1 1 5 8".toList) (p := fun A => decide (A.getElement 1 1 = .ok 8)) (by decide +kernel)
  exact ⟨A', e, of_decide_eq_true h⟩

/-- **C78 fails**, ELLPACK: a column beyond the matrix is accepted, and the next export of the matrix writes
outside of its array. -/
theorem C78_ellpack_column : ∃ A' : Ell Int, (Ell.zeroMatrix 2 2).readMm fmtInt exFar = .ok A' ∧
    A'.exportDense .rowMajor (seqSched 0 2) = .ub := by
  obtain ⟨A', e, h⟩ := Res.exists_okAnd (r := (Ell.zeroMatrix 2 2 : Ell Int).readMm fmtInt exFar)
    (p := fun A => (A.exportDense .rowMajor (seqSched 0 2)).isUb) (by decide +kernel)
  exact ⟨A', e, Res.eq_ub_of_isUb h⟩

/-- **C78 fails**: of two entries at one position dense keeps the last, ELLPACK and CSR store both, and
`bml_get_element` gives the first. -/
theorem C78_duplicate_witness :
    (∃ A' : Dense Int, (Dense.zeroMatrix 2).readMm fmtInt exTwice = .ok A' ∧ A'.getElement 0 0 = .ok 4) ∧
    (∃ A' : Ell Int, (Ell.zeroMatrix 2 2).readMm fmtInt exTwice = .ok A' ∧ A'.getElement 0 0 = .ok 5) ∧
    ∃ A' : Csr Int, (Csr.newZero 2 2).readMm fmtInt exTwice = .ok A' ∧ A'.getElement 0 0 = .ok 5 := by
  refine ⟨?_, ?_, ?_⟩
  · obtain ⟨A', e, h⟩ := Res.exists_okAnd (r := (Dense.zeroMatrix 2 : Dense Int).readMm fmtInt exTwice)
      (p := fun A => decide (A.getElement 0 0 = .ok 4)) (by decide +kernel)
    exact ⟨A', e, of_decide_eq_true h⟩
  · obtain ⟨A', e, h⟩ := Res.exists_okAnd (r := (Ell.zeroMatrix 2 2 : Ell Int).readMm fmtInt exTwice)
      (p := fun A => decide (A.getElement 0 0 = .ok 5)) (by decide +kernel)
    exact ⟨A', e, of_decide_eq_true h⟩
  · obtain ⟨A', e, h⟩ := Res.exists_okAnd (r := (Csr.newZero 2 2 : Csr Int).readMm fmtInt exTwice)
      (p := fun A => decide (A.getElement 0 0 = .ok 5)) (by decide +kernel)
    exact ⟨A', e, of_decide_eq_true h⟩

end Bml.Props
