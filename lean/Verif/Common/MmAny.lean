import Verif.Common.MatrixMarket

/-!
# Matrix files that were not written by the library

What an arbitrary text contains, in terms of the conversions of `fscanf`.
-/

namespace Bml.Mm

variable {R : Type}

/-- Up to `n` entries from a text, and whether there are so many: it ends at the first entry that is
missing or malformed. -/
def takeEntries (f : Fmt R) : Nat → List Char → List (Int × Int × R) × Bool
  | 0, _ => ([], true)
  | n + 1, s =>
    match entry f s with
    | .ok (i, j, v, rest) => ((i, j, v) :: (takeEntries f n rest).1, (takeEntries f n rest).2)
    | _ => ([], false)

/-- What a file contains: whether it is declared symmetric, its entries (rows and columns from zero), and
whether there are as many as announced.  `error`: header or dimensions are malformed.  `ub`: a header
word does not fit the reader's buffer. -/
def contents (f : Fmt R) (file : List Char) : Res (Bool × List (Int × Int × R) × Bool) := do
  let (sym, nnz, rest) ← header file
  pure (sym, takeEntries f nnz.toNat rest)

/-- All positions are in the matrix. -/
def InRange (N : Nat) (es : List (Int × Int × R)) : Prop :=
  ∀ e ∈ es, 0 ≤ e.1 ∧ e.1 < N ∧ 0 ≤ e.2.1 ∧ e.2.1 < N

instance {N : Nat} {es : List (Int × Int × R)} : Decidable (InRange N es) := by
  unfold InRange
  infer_instance

/-- Entries with natural numbers as positions. -/
def nats (es : List (Int × Int × R)) : List (Nat × Nat × R) := es.map fun e => (e.1.toNat, e.2.1.toNat, e.2.2)

theorem int_not_ub (s : List Char) : int s ≠ .ub := by
  unfold int
  cases scanInt s <;> exact fun h => by cases h

theorem entry_not_ub (f : Fmt R) (s : List Char) : entry f s ≠ .ub := by
  unfold entry
  cases h1 : int s with
  | error => exact fun h => by cases h
  | ub => exact absurd h1 (int_not_ub s)
  | ok r =>
    show (do let (j, s) ← int r.2; let (v, s) ← value f s; pure (r.1 - 1, j - 1, v, s) : Res _) ≠ .ub
    cases h2 : int r.2 with
    | error => exact fun h => by cases h
    | ub => exact absurd h2 (int_not_ub _)
    | ok q =>
      show (do let (v, s) ← value f q.2; pure (r.1 - 1, q.1 - 1, v, s) : Res _) ≠ .ub
      unfold value
      cases f.scan q.2 <;> exact fun h => by cases h

/-- Reading any file: the entries are stored one after the other; then a missing entry is an error. -/
theorem readWith_eq {σ : Type} (f : Fmt R) (file : List Char) (s0 : σ)
    (step : Bool → Int → Int → R → σ → Res σ) :
    readWith f file s0 step = (do
      let c ← contents f file
      let s ← forList c.2.1 s0 fun e s => step c.1 e.1 e.2.1 e.2.2 s
      if c.2.2 then pure s else .error) := by
  unfold readWith contents
  cases header file with
  | error => rfl
  | ub => rfl
  | ok h =>
    obtain ⟨sym, nnz, rest⟩ := h
    simp only [Res.bind_ok, pure_bind]
    generalize nnz.toNat = n
    have key : ∀ (n : Nat) (s : σ) (rest : List Char),
        (do let st ← (loop n (s, rest) fun _ st => do
                let (i, j, v, rest) ← entry f st.2
                let s ← step sym i j v st.1
                pure (s, rest) : Res (σ × List Char))
            pure st.1 : Res σ) = (do
          let s ← forList (takeEntries f n rest).1 s fun e s => step sym e.1 e.2.1 e.2.2 s
          if (takeEntries f n rest).2 then pure s else .error) := by
      intro n
      induction n with
      | zero => intro s rest; rfl
      | succ n ih =>
        intro s rest
        rw [loop_const]
        unfold takeEntries
        cases he : entry f rest with
        | error => rfl
        | ub => exact absurd he (entry_not_ub f rest)
        | ok r =>
          obtain ⟨i, j, v, rest'⟩ := r
          simp only [Res.bind_ok, forList_cons, bind_assoc, pure_bind]
          cases step sym i j v s with
          | error => rfl
          | ub => rfl
          | ok s' => exact ih s' rest'
    exact key n s0 rest

theorem forList_nats {σ : Type} {N : Nat} {es : List (Int × Int × R)} (h : InRange N es) (s : σ)
    (step : Int → Int → R → σ → Res σ) :
    (forList es s fun e s => step e.1 e.2.1 e.2.2 s) =
      forList (nats es) s fun e s => step (e.1 : Int) (e.2.1 : Int) e.2.2 s := by
  induction es generalizing s with
  | nil => rfl
  | cons e es ih =>
    obtain ⟨h1, -, h2, -⟩ := h e (by simp)
    show _ = forList ((e.1.toNat, e.2.1.toNat, e.2.2) :: nats es) s _
    rw [forList_cons, forList_cons]
    simp only [Int.toNat_of_nonneg h1, Int.toNat_of_nonneg h2]
    congr 1
    funext s
    exact ih (fun e he => h e (by simp [he])) s

theorem nats_range {N : Nat} {es : List (Int × Int × R)} (h : InRange N es) :
    ∀ e ∈ nats es, e.1 < N ∧ e.2.1 < N := by
  intro e he
  obtain ⟨x, hx, rfl⟩ := List.mem_map.1 he
  obtain ⟨h1, h2, h3, h4⟩ := h x hx
  simp only
  omega

/-! ## Texts in any layout -/

/-- One or more blanks, tabulators, line ends. -/
def Gap (b : List Char) : Prop := b ≠ [] ∧ ∀ c ∈ b, isWs c = true

/-- The text is at an end or a blank. -/
def Ends (s : List Char) : Prop := ∀ c, s.head? = some c → isWs c = true

/-- `t` is a way to write the value `v`. -/
def Fmt.Writes (f : Fmt R) (t : List Char) (v : R) : Prop :=
  ∀ b s, Gap b → Ends s → f.scan (b ++ (t ++ s)) = some (v, s)

/-- The text has the entries `es` (rows and columns from one), separated by gaps of any kind, and then
goes on in any way. -/
inductive EntriesText (f : Fmt R) : List (Nat × Nat × R) → List Char → Prop
  | nil {s : List Char} : Ends s → EntriesText f [] s
  | cons {i j : Nat} {v : R} {es : List (Nat × Nat × R)} {b1 b2 b3 t s : List Char} :
    Gap b1 → Gap b2 → Gap b3 → f.Writes t v → EntriesText f es s →
    EntriesText f ((i, j, v) :: es) (b1 ++ (dec (i + 1) ++ (b2 ++ (dec (j + 1) ++ (b3 ++ (t ++ s))))))

/-- The text has five words, of which the fifth is `sym`, two numbers, the number of the entries, and the
entries. -/
inductive FileText (f : Fmt R) : String → List (Nat × Nat × R) → List Char → Prop
  | mk {w1 w2 w3 w4 sym : String} {n m : Nat} {es : List (Nat × Nat × R)}
    {b2 b3 b4 b5 b6 b7 b8 s : List Char} : Word w1 → Word w2 → Word w3 → Word w4 → Word sym →
    Gap b2 → Gap b3 → Gap b4 → Gap b5 → Gap b6 → Gap b7 → Gap b8 → EntriesText f es s →
    FileText f sym es (w1.toList ++ (b2 ++ (w2.toList ++ (b3 ++ (w3.toList ++ (b4 ++ (w4.toList ++ (b5 ++
      (sym.toList ++ (b6 ++ (dec n ++ (b7 ++ (dec m ++ (b8 ++ (dec es.length ++ s)))))))))))))))

theorem Gap.ends {b : List Char} (h : Gap b) (s : List Char) : Ends (b ++ s) := by
  obtain ⟨h1, h2⟩ := h
  cases b with
  | nil => exact absurd rfl h1
  | cons c b =>
    intro c' hc
    simp at hc
    subst hc
    exact h2 _ (by simp)

theorem EntriesText.ends {f : Fmt R} {es : List (Nat × Nat × R)} {s : List Char} (h : EntriesText f es s) :
    Ends s := by
  cases h with
  | nil h => exact h
  | cons h => exact h.ends _

theorem Ends.not_digit {s : List Char} (h : Ends s) : ∀ c, s.head? = some c → c.isDigit = false := by
  intro c hc
  by_contra hd
  have := digit_not_ws (c := c) (by simpa using hd)
  rw [h c hc] at this
  cases this

theorem int_gap {b : List Char} (h : ∀ c ∈ b, isWs c = true) (s : List Char) : int (b ++ s) = int s := by
  induction b with
  | nil => rfl
  | cons c b ih =>
    rw [List.cons_append, int_ws (h c (by simp))]
    exact ih fun c hc => h c (by simp [hc])

theorem word_gap {b : List Char} (h : ∀ c ∈ b, isWs c = true) (s : List Char) : word (b ++ s) = word s := by
  induction b with
  | nil => rfl
  | cons c b ih =>
    rw [List.cons_append, word_ws (h c (by simp))]
    exact ih fun c hc => h c (by simp [hc])

theorem int_token {b s : List Char} (hb : Gap b) (n : Nat) (hs : Ends s) :
    int (b ++ (dec n ++ s)) = .ok ((n : Int), s) := by
  rw [int_gap hb.2]
  unfold int
  rw [scanInt_dec n hs.not_digit]

theorem takeEntries_eq {f : Fmt R} {es : List (Nat × Nat × R)} {s : List Char} (h : EntriesText f es s) :
    takeEntries f es.length s = (es.map fun e => ((e.1 : Int), (e.2.1 : Int), e.2.2), true) := by
  induction h with
  | nil _ => rfl
  | @cons i j v es b1 b2 b3 t s h1 h2 h3 hv hs ih =>
    rw [List.length_cons]
    unfold takeEntries
    have : entry f (b1 ++ (dec (i + 1) ++ (b2 ++ (dec (j + 1) ++ (b3 ++ (t ++ s)))))) =
        .ok ((i : Int), (j : Int), v, s) := by
      unfold entry
      rw [int_token h1 _ (h2.ends _), Res.bind_ok]
      simp only
      rw [int_token h2 _ (h3.ends _), Res.bind_ok]
      simp only
      unfold value
      rw [hv b3 s h3 hs.ends]
      show Res.ok _ = _
      simp
    rw [this]
    simp only [ih, List.map_cons]

/-- What a text in any layout contains. -/
theorem contents_eq {f : Fmt R} {sym : String} {es : List (Nat × Nat × R)} {file : List Char}
    (h : FileText f sym es file) : contents f file =
      .ok (decide (sym = "symmetric"), es.map fun e => ((e.1 : Int), (e.2.1 : Int), e.2.2), true) := by
  cases h with
  | @mk w1 w2 w3 w4 _ n m _ b2 b3 b4 b5 b6 b7 b8 s h1 h2 h3 h4 h5 g2 g3 g4 g5 g6 g7 g8 hs =>
    unfold contents header
    rw [word_eq h1.ne h1.blank h1.len (g2.ends _), Res.bind_ok]
    simp only
    rw [word_gap g2.2, word_eq h2.ne h2.blank h2.len (g3.ends _), Res.bind_ok]
    simp only
    rw [word_gap g3.2, word_eq h3.ne h3.blank h3.len (g4.ends _), Res.bind_ok]
    simp only
    rw [word_gap g4.2, word_eq h4.ne h4.blank h4.len (g5.ends _), Res.bind_ok]
    simp only
    rw [word_gap g5.2, word_eq h5.ne h5.blank h5.len (g6.ends _), Res.bind_ok]
    simp only
    rw [int_token g6 _ (g7.ends _), Res.bind_ok]
    simp only
    rw [int_token g7 _ (g8.ends _), Res.bind_ok]
    simp only
    rw [int_token g8 _ hs.ends, Res.bind_ok]
    simp only [Res.pure_eq, Res.bind_ok, Int.toNat_natCast]
    rw [takeEntries_eq hs]
    congr 3
    exact propext String.toList_inj

end Bml.Mm
