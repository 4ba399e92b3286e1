import Verif.Basic

/-!
# Matrix files: the text layer (`bml_write_bml_matrix`, `bml_read_bml_matrix`)

All formats write the same text: a header line of five words, a line `N N nnz`, and one line
`row column value` per element, rows and columns counted from one.  All formats read it with
`fscanf`.  This file models the text: a file is a list of characters, `scanWord`, `scanInt` and
`Fmt.scan` are the conversions `%s`, `%d` and `%lf` of `fscanf`, `dec` is the conversion `%d` of
`fprintf`.

Simplifications.  Integers are unbounded.  How a floating-point number is printed and parsed is
the C library's business: it is a parameter `Fmt`, and the theorems ask that the numbers
concerned survive printing and parsing (`Fmt.Exact`).  (`%20.15g` prints 15 significant digits;
a `double` that needs 16 or 17 does not survive.)  Failure to open the file is not modelled: the
code does not check for it.
-/

namespace Bml.Mm

/-- `isspace` in the C locale. -/
def isWs (c : Char) : Bool :=
  c = ' ' || c = '\n' || c = '\t' || c = '\r' || c = '\x0b' || c = '\x0c'

/-- Leading blanks, skipped by every conversion used here. -/
def skipWs (s : List Char) : List Char := s.dropWhile isWs

/-- `fscanf`'s `%s`: skip blanks, take a word.  `none`: end of file. -/
def scanWord (s : List Char) : Option (List Char × List Char) :=
  let s := skipWs s
  let w := s.takeWhile (fun c => !isWs c)
  if w = [] then none else some (w, s.dropWhile (fun c => !isWs c))

/-- The sign of a number. -/
def scanSign : List Char → Bool × List Char
  | '-' :: s => (true, s)
  | '+' :: s => (false, s)
  | s => (false, s)

/-- `fscanf`'s `%d`.  `none`: no number here. -/
def scanInt (s : List Char) : Option (Int × List Char) :=
  let (neg, s) := scanSign (skipWs s)
  let d := s.takeWhile Char.isDigit
  if d = [] then none
  else
    let n : Nat := Nat.ofDigitChars 10 d 0
    some (if neg then -(n : Int) else (n : Int), s.dropWhile Char.isDigit)

/-- `fprintf`'s `%d`, of a number that is not negative. -/
def dec (n : Nat) : List Char := Nat.toDigits 10 n

/-- How a matrix element is printed and parsed: `%20.15g` and `%lf`, or two of them for a complex
number. -/
structure Fmt (R : Type) where
  /-- The header's word for the type: `real` or `complex`. -/
  kind : String
  print : R → List Char
  scan : List Char → Option (R × List Char)

/-- The value survives: wherever it is printed, after a blank and before the end of the line, it
is parsed as the same value. -/
def Fmt.Exact {R : Type} (f : Fmt R) (v : R) : Prop :=
  ∀ rest, f.scan (' ' :: (f.print v ++ '\n' :: rest)) = some (v, '\n' :: rest)

/-! ## Writing -/

variable {R : Type}

/-- The header line, e.g. `ellpack/bml_utilities_ellpack_typed.c` lines 154-158 (three percent
signs, not two as the MatrixMarket format has). -/
def headerText (kind sym : String) : List Char :=
  "%%%MatrixMarket matrix coordinate ".toList ++ (kind.toList ++ (' ' :: (sym.toList ++ ['\n'])))

/-- The line of the dimensions, line 167. -/
def sizeText (N m : Nat) : List Char :=
  dec N ++ (' ' :: (dec N ++ (' ' :: (dec m ++ ['\n']))))

/-- The line of an element in row `i` and column `j` (from zero), lines 179-181. -/
def lineText (f : Fmt R) (i j : Nat) (v : R) : List Char :=
  dec (i + 1) ++ (' ' :: (dec (j + 1) ++ (' ' :: (f.print v ++ ['\n']))))

/-! ## Reading -/

/-- A header word, read into `char[20]`: a word of 20 or more characters is written past the end.
`bml_utilities_ellpack_typed.c` lines 28, 44-48. -/
def word (s : List Char) : Res (List Char × List Char) :=
  match scanWord s with
  | none => .error
  | some (w, rest) => if w.length < 20 then .ok (w, rest) else .ub

/-- The same for an integer. -/
def int (s : List Char) : Res (Int × List Char) :=
  match scanInt s with
  | none => .error
  | some r => .ok r

/-- The same for an element. -/
def value (f : Fmt R) (s : List Char) : Res (R × List Char) :=
  match f.scan s with
  | none => .error
  | some r => .ok r

/-- The header line and the line of the dimensions, lines 43-61: whether the header's fifth word
is `symmetric`, and the number of entries.  The dimension is read and ignored. -/
def header (s : List Char) : Res (Bool × Int × List Char) := do
  let (_, s) ← word s
  let (_, s) ← word s
  let (_, s) ← word s
  let (_, s) ← word s
  let (w, s) ← word s
  let (_, s) ← int s
  let (_, s) ← int s
  let (nnz, s) ← int s
  pure (decide (w = "symmetric".toList), nnz, s)

/-- An entry, lines 66-99, with the indices after `irow--` and `icol--`.  (The `\n` of the format
only skips blanks, which the next conversion skips anyway.) -/
def entry (f : Fmt R) (s : List Char) : Res (Int × Int × R × List Char) := do
  let (i, s) ← int s
  let (j, s) ← int s
  let (v, s) ← value f s
  pure (i - 1, j - 1, v, s)

/-- Reading a file: `step sym i j v` is what the format does with the entry `v` in row `i` and
column `j` of a file that is (`sym`) or is not declared symmetric.  Lines 22-119. -/
def readWith {σ : Type} (f : Fmt R) (file : List Char) (s0 : σ)
    (step : Bool → Int → Int → R → σ → Res σ) : Res σ := do
  let (sym, nnz, rest) ← header file
  let st ← loop nnz.toNat (s0, rest) fun _ st => do
    let (i, j, v, rest) ← entry f st.2
    let s ← step sym i j v st.1
    pure (s, rest)
  pure st.1

/-! ## What the conversions do on written text -/

/-- A whole file with the entries `es`. -/
def fileText (f : Fmt R) (sym : String) (N : Nat) (es : List (Nat × Nat × R)) : List Char :=
  headerText f.kind sym ++ (sizeText N es.length ++
    es.flatMap fun e => lineText f e.1 e.2.1 e.2.2)

theorem scanWord_ws {c : Char} (h : isWs c = true) (s : List Char) :
    scanWord (c :: s) = scanWord s := by
  unfold scanWord skipWs
  simp [h]

theorem scanInt_ws {c : Char} (h : isWs c = true) (s : List Char) :
    scanInt (c :: s) = scanInt s := by
  unfold scanInt skipWs
  simp [h]

theorem takeWhile_stop {p : Char → Bool} {w rest : List Char} (hw : ∀ c ∈ w, p c = true)
    (hr : ∀ c, rest.head? = some c → p c = false) :
    (w ++ rest).takeWhile p = w ∧ (w ++ rest).dropWhile p = rest := by
  induction w with
  | nil =>
    cases rest with
    | nil => simp
    | cons c t =>
      have := hr c rfl
      simp [this]
  | cons c t ih =>
    obtain ⟨h1, h2⟩ := ih (fun c' h' => hw c' (by simp [h']))
    have := hw c (by simp)
    simp [this, h1, h2]

theorem scanWord_word {w rest : List Char} (hne : w ≠ []) (hw : ∀ c ∈ w, isWs c = false)
    (hr : ∀ c, rest.head? = some c → isWs c = true) : scanWord (w ++ rest) = some (w, rest) := by
  have hskip : skipWs (w ++ rest) = w ++ rest := by
    cases w with
    | nil => exact absurd rfl hne
    | cons c t =>
      have := hw c (by simp)
      simp [skipWs, this]
  obtain ⟨h1, h2⟩ := takeWhile_stop (p := fun c => !isWs c) (w := w) (rest := rest)
    (fun c h => by simp [hw c h]) (fun c h => by simp [hr c h])
  unfold scanWord
  simp only [hskip, h1, h2]
  rw [if_neg hne]

theorem digit_not_ws {c : Char} (h : c.isDigit = true) : isWs c = false := by
  unfold isWs
  simp only [Bool.or_eq_false_iff, decide_eq_false_iff_not]
  refine ⟨⟨⟨⟨⟨?_, ?_⟩, ?_⟩, ?_⟩, ?_⟩, ?_⟩ <;> (rintro rfl; exact absurd h (by decide))

theorem dec_digits {n : Nat} {c : Char} (h : c ∈ dec n) : c.isDigit = true :=
  Nat.isDigit_of_mem_toDigits (by decide) (by decide) h

theorem scanSign_digit {c : Char} (h : c.isDigit = true) (s : List Char) :
    scanSign (c :: s) = (false, c :: s) := by
  unfold scanSign
  split
  · rename_i heq
    injection heq with h1 h2
    subst h1
    exact absurd h (by decide)
  · rename_i heq
    injection heq with h1 h2
    subst h1
    exact absurd h (by decide)
  · rfl

theorem scanInt_dec (n : Nat) {rest : List Char}
    (hr : ∀ c, rest.head? = some c → c.isDigit = false) :
    scanInt (dec n ++ rest) = some ((n : Int), rest) := by
  have hne : dec n ≠ [] := Nat.toDigits_ne_nil
  obtain ⟨h1, h2⟩ := takeWhile_stop (p := Char.isDigit) (w := dec n) (rest := rest)
    (fun c h => dec_digits h) hr
  have hs : scanSign (skipWs (dec n ++ rest)) = (false, dec n ++ rest) := by
    cases hd : dec n with
    | nil => exact absurd hd hne
    | cons c t =>
      have hc : c.isDigit = true := dec_digits (n := n) (by simp [hd])
      have : skipWs (c :: t ++ rest) = c :: (t ++ rest) := by simp [skipWs, digit_not_ws hc]
      rw [this, scanSign_digit hc]
      rfl
  unfold scanInt
  simp only [hs, h1, h2]
  rw [if_neg hne]
  simp [dec]

theorem word_eq {w rest : List Char} (hne : w ≠ []) (hw : ∀ c ∈ w, isWs c = false)
    (hl : w.length < 20) (hr : ∀ c, rest.head? = some c → isWs c = true) :
    word (w ++ rest) = .ok (w, rest) := by
  unfold word
  rw [scanWord_word hne hw hr]
  simp [hl]

theorem word_ws {c : Char} (h : isWs c = true) (s : List Char) : word (c :: s) = word s := by
  unfold word
  rw [scanWord_ws h]

theorem int_ws {c : Char} (h : isWs c = true) (s : List Char) : int (c :: s) = int s := by
  unfold int
  rw [scanInt_ws h]

theorem int_dec (n : Nat) {c : Char} {rest : List Char} (hc : c.isDigit = false) :
    int (dec n ++ c :: rest) = .ok ((n : Int), c :: rest) := by
  unfold int
  rw [scanInt_dec n (by
    intro c' h
    simp at h
    subst h
    exact hc)]

/-- A word that fits the reader's buffers. -/
structure Word (w : String) : Prop where
  ne : w.toList ≠ []
  blank : ∀ c ∈ w.toList, isWs c = false
  len : w.toList.length < 20

theorem Word.eq {w : String} (h : Word w) {c : Char} (hc : isWs c = true) (rest : List Char) :
    word (w.toList ++ c :: rest) = .ok (w.toList, c :: rest) :=
  word_eq h.ne h.blank h.len (by
    intro c' h
    simp at h
    subst h
    exact hc)

theorem header_eq {kind sym : String} (hk : Word kind) (hs : Word sym) (N m : Nat)
    (rest : List Char) :
    header (headerText kind sym ++ (sizeText N m ++ rest))
      = .ok (decide (sym = "symmetric"), (m : Int), '\n' :: rest) := by
  have w1 : Word "%%%MatrixMarket" := ⟨by decide, by decide, by decide⟩
  have w2 : Word "matrix" := ⟨by decide, by decide, by decide⟩
  have w3 : Word "coordinate" := ⟨by decide, by decide, by decide⟩
  have hb : isWs ' ' = true := by decide
  have hn : isWs '\n' = true := by decide
  have hd : Char.isDigit ' ' = false := by decide
  have hd' : Char.isDigit '\n' = false := by decide
  have ht : headerText kind sym ++ (sizeText N m ++ rest)
      = "%%%MatrixMarket".toList ++ ' ' :: ("matrix".toList ++ ' ' :: ("coordinate".toList ++
        ' ' :: (kind.toList ++ ' ' :: (sym.toList ++ '\n' :: (dec N ++ ' ' :: (dec N ++ ' ' ::
        (dec m ++ '\n' :: rest))))))) := by
    have e : "%%%MatrixMarket matrix coordinate ".toList
        = "%%%MatrixMarket".toList ++ ' ' :: ("matrix".toList ++ ' ' :: ("coordinate".toList ++
        [' '])) := by decide
    unfold headerText sizeText
    rw [e]
    simp only [List.append_assoc, List.cons_append, List.nil_append]
  rw [ht]
  unfold header
  rw [w1.eq hb, Res.bind_ok]
  simp only
  rw [word_ws hb, w2.eq hb, Res.bind_ok]
  simp only
  rw [word_ws hb, w3.eq hb, Res.bind_ok]
  simp only
  rw [word_ws hb, hk.eq hb, Res.bind_ok]
  simp only
  rw [word_ws hb, hs.eq hn, Res.bind_ok]
  simp only
  rw [int_ws hn, int_dec N hd, Res.bind_ok]
  simp only
  rw [int_ws hb, int_dec N hd, Res.bind_ok]
  simp only
  rw [int_ws hb, int_dec m hd', Res.bind_ok]
  simp only [String.toList_inj]
  rfl

theorem entry_eq {f : Fmt R} (i j : Nat) {v : R} (hv : f.Exact v) (rest : List Char) :
    entry f ('\n' :: (lineText f i j v ++ rest)) = .ok ((i : Int), (j : Int), v, '\n' :: rest) := by
  have hn : isWs '\n' = true := by decide
  have hb : isWs ' ' = true := by decide
  have hd : Char.isDigit ' ' = false := by decide
  unfold entry lineText
  simp only [List.append_assoc, List.cons_append, List.nil_append]
  rw [int_ws hn, int_dec (i + 1) hd, Res.bind_ok]
  simp only
  rw [int_ws hb, int_dec (j + 1) hd, Res.bind_ok]
  simp only
  unfold value
  rw [hv rest]
  simp only [Res.bind_ok]
  have h1 : (((i + 1 : Nat) : Int) - 1) = (i : Int) := by omega
  have h2 : (((j + 1 : Nat) : Int) - 1) = (j : Int) := by omega
  rw [h1, h2]
  rfl

/-- A loop whose body ignores the counter, first step first. -/
theorem loop_const {σ : Type} (n : Nat) (s : σ) (g : σ → Res σ) :
    loop (n + 1) s (fun _ => g) = (g s >>= fun s => loop n s fun _ => g) := by
  induction n with
  | zero => exact (bind_pure _).symm
  | succ n ih =>
    rw [loop_succ, ih, bind_assoc]
    rfl

/-- **Reading a written file** does to the state exactly what its entries say, in order. -/
theorem readWith_fileText {σ : Type} {f : Fmt R} (hk : Word f.kind) {sym : String} (hs : Word sym)
    (N : Nat) (es : List (Nat × Nat × R)) (hv : ∀ e ∈ es, f.Exact e.2.2) (s0 : σ)
    (step : Bool → Int → Int → R → σ → Res σ) :
    readWith f (fileText f sym N es) s0 step
      = forList es s0 fun e s => step (decide (sym = "symmetric")) e.1 e.2.1 e.2.2 s := by
  unfold readWith fileText
  rw [header_eq hk hs, Res.bind_ok]
  simp only [Int.toNat_natCast]
  -- reading `es`, one by one, from any state
  have key : ∀ (es : List (Nat × Nat × R)) (s : σ), (∀ e ∈ es, f.Exact e.2.2) →
      (loop es.length (s, '\n' :: es.flatMap fun e => lineText f e.1 e.2.1 e.2.2) fun _ st => do
        let (i, j, v, rest) ← entry f st.2
        let s ← step (decide (sym = "symmetric")) i j v st.1
        pure (s, rest))
      = (do let s ← forList es s fun e s => step (decide (sym = "symmetric")) e.1 e.2.1 e.2.2 s
            pure (s, ['\n'])) := by
    intro es
    induction es with
    | nil => intro s _; rfl
    | cons e es ih =>
      intro s he
      obtain ⟨i, j, v⟩ := e
      rw [List.length_cons, loop_const, List.flatMap_cons]
      rw [entry_eq i j (he (i, j, v) (by simp)), Res.bind_ok]
      simp only [forList_cons, bind_assoc, pure_bind]
      congr 1
      funext s
      exact ih s (fun e h => he e (by simp [h]))
  rw [key es s0 hv, bind_assoc]
  simp only [pure_bind]
  exact bind_pure _

end Bml.Mm
