import Verif.Memory.Proof

/-!
# Programs of calls that allocate

A program keeps what the calls gave it (matrices and arrays) in a list and names them by their place.
-/

namespace Bml
namespace Memory

variable [Allocator]

/-- What a program can hold. -/
inductive Obj
  | dense (A : DenseO)
  | ell (A : EllO)
  | csr (A : CsrO)
  | array (p : Blk)
  | gone

/-- The blocks of what a program holds; nothing once it has been released. -/
def Obj.blocks : Obj → Multiset Blk
  | .dense A => A.blocks
  | .ell A => A.blocks
  | .csr A => A.blocks
  | .array p => {p}
  | .gone => 0

/-- Calls; the lists and flags tell what the numbers in the matrices make the call do. -/
inductive Cmd
  | newDense (N : Nat)
  | newEll (N : Nat)
  | randomEll (N : Nat)
  | newCsr (N : Nat)
  | randomCsr (N : Nat)
  | release (i : Nat)
  | copy (i : Nat)
  | array (i : Nat)
  | transposeEll (i : Nat) (omp : Bool)
  | transposeCsr (i : Nat) (omp : Bool) (app : List (Nat × Bool))
  | inverse (i : Nat) (app : List (Nat × Bool))
  | reorder (i : Nat)
  | diagonalize (i k : Nat) (cplx dc fits : Bool) (app : List (Nat × Bool))
  | addCsr (i j threads : Nat) (es : Nat → List Entry)
  | multiply (i j k : Nat) (plain : Bool) (threads : Nat) (app : List (Nat × Bool)) (es : Nat → List Entry)
  | extractCsr (i n : Nat) (full : Nat → Bool)
  | setRowCsr (i r : Nat) (full : Bool)
  | convertToCsr (i N : Nat) (full : Nat → Bool)

/-- The appended elements are in rows the matrix has. -/
def inRows (app : List (Nat × Bool)) (n : Nat) : Bool := app.all fun x => decide (x.1 < n)

/-- One call.  A call with the wrong kind of argument ends the program (`LOG_ERROR` in the dispatching
functions, e.g. `bml_multiply.c` 32-70), and so here does a call with what was released, one whose result
is one of its operands, and one of two equal matrices other than a square; the domains of
`bml_convert_csr`'s source are those of its `bml_get_row` (`csr/bml_convert_csr_typed.c` 20-45). -/
def step : Cmd → List Obj → M (List Obj)
  | .newDense N, s => do
    let A ← Memory.newDense N
    pure (.dense A :: s)
  | .newEll N, s => do
    let A ← Memory.newEll N
    pure (.ell A :: s)
  | .randomEll N, s => do
    let A ← Memory.randomEll N
    pure (.ell A :: s)
  | .newCsr N, s => do
    let A ← Memory.newCsr N
    pure (.csr A :: s)
  | .randomCsr N, s => do
    let A ← Memory.randomCsr N
    pure (.csr A :: s)
  | .release i, s =>
    match s[i]? with
    | some (.dense A) => do
      A.deallocate
      pure (s.set i .gone)
    | some (.ell A) => do
      A.deallocate
      pure (s.set i .gone)
    | some (.csr A) => do
      A.deallocate
      pure (s.set i .gone)
    | some (.array p) => do
      free p
      pure (s.set i .gone)
    | _ => stop
  | .copy i, s =>
    match s[i]? with
    | some (.dense A) => do
      let B ← A.copyNew
      pure (.dense B :: s)
    | some (.ell A) => do
      let B ← A.newFrom A.N
      pure (.ell B :: s)
    | some (.csr A) => do
      let B ← A.copyNew
      pure (.csr B :: s)
    | _ => stop
  | .array i, s =>
    match s[i]? with
    | some (.dense A) => do
      let p ← A.array
      pure (.array p :: s)
    | some (.ell A) => do
      let p ← A.array
      pure (.array p :: s)
    | some (.csr A) => do
      let p ← A.array
      pure (.array p :: s)
    | _ => stop
  | .transposeEll i omp, s =>
    match s[i]? with
    | some (.ell A) => do
      let B ← A.transposeNew omp
      pure (.ell B :: s)
    | _ => stop
  | .transposeCsr i omp app, s =>
    match s[i]? with
    | some (.csr A) =>
      if inRows app A.rows.length then do
        let B ← A.transposeNew omp app
        pure (.csr B :: s)
      else stop
    | _ => stop
  | .inverse i app, s =>
    match s[i]? with
    | some (.dense A) => do
      let B ← A.inverse
      pure (.dense B :: s)
    | some (.ell A) => do
      let B ← A.inverse
      pure (.ell B :: s)
    | some (.csr A) =>
      if inRows app A.rows.length then do
        let B ← A.inverse app
        pure (.csr B :: s)
      else stop
    | _ => stop
  | .reorder i, s =>
    match s[i]? with
    | some (.dense A) => do
      A.reorder
      pure s
    | some (.ell A) => do
      A.reorder
      pure s
    | _ => stop
  | .diagonalize i k cplx dc fits app, s =>
    if i = k then stop else
    match s[i]?, s[k]? with
    | some (.dense A), some (.dense V) => do
      A.diagonalize cplx dc V
      pure s
    | some (.ell A), some (.ell V) => do
      A.diagonalize cplx dc V
      pure s
    | some (.csr A), some (.csr V) =>
      if inRows app A.rows.length then do
        A.diagonalize cplx dc fits app V
        pure s
      else stop
    | _, _ => stop
  | .addCsr i j threads es, s =>
    if i = j then stop else
    match s[i]?, s[j]? with
    | some (.csr A), some (.csr B) => do
      let A' ← A.add threads es B
      pure (s.set i (.csr A'))
    | _, _ => stop
  | .multiply i j k plain threads app es, s =>
    if i = k ∨ j = k then stop else
    match s[i]?, s[j]?, s[k]? with
    | some (.ell A), some (.ell B), some (.ell C) => do
      A.multiply (decide (i = j)) plain B C
      pure s
    | some (.csr A), some (.csr B), some (.csr C) =>
      if inRows app C.rows.length then do
        let C' ← A.multiply (decide (i = j)) plain threads app es B C
        pure (s.set k (.csr C'))
      else stop
    | _, _, _ => stop
  | .extractCsr i n full, s =>
    match s[i]? with
    | some (.csr A) => do
      let B ← A.extract n full
      pure (.csr B :: s)
    | _ => stop
  | .setRowCsr i r full, s =>
    match s[i]? with
    | some (.csr A) =>
      if r < A.rows.length then do
        let A' ← A.setRow full r
        pure (s.set i (.csr A'))
      else stop
    | _ => stop
  | .convertToCsr i N full, s =>
    match s[i]? with
    | some (.dense A) => do
      let B ← convertCsr N A.array full
      pure (.csr B :: s)
    | some (.ell A) => do
      let B ← convertCsr N A.array full
      pure (.csr B :: s)
    | some (.csr A) => do
      let B ← convertCsr N A.array full
      pure (.csr B :: s)
    | _ => stop

/-- A program. -/
def run : List Cmd → List Obj → M (List Obj)
  | [], s => pure s
  | c :: L, s => do
    let s' ← step c s
    run L s'

/-! ## Proof -/

/-- No sum meets an entry its row already has after that row had to grow. -/
def Cmd.Safe : Cmd → Prop
  | .addCsr _ _ _ es => ∀ i, EntriesSafe (es i)
  | .multiply _ _ _ _ _ _ es => ∀ i, EntriesSafe (es i)
  | _ => True

/-- The blocks a call loses. -/
def Cmd.lost : Cmd → Nat
  | .transposeEll _ omp => if omp then 1 else 0
  | .extractCsr _ n _ => 2 * n
  | _ => 0

variable {E : Prop}

omit [Allocator] in
theorem take1 {s : List Obj} {i : Nat} {a : Obj} (h : s[i]? = some a) :
    ∃ R, total Obj.blocks s = a.blocks + R ∧ ∀ b : Obj, total Obj.blocks (s.set i b) = b.blocks + R :=
  total_split Obj.blocks s i a h

omit [Allocator] in
theorem take2 {s : List Obj} {i j : Nat} {a b : Obj} (hij : i ≠ j) (h1 : s[i]? = some a)
    (h2 : s[j]? = some b) : ∃ R, total Obj.blocks s = a.blocks + b.blocks + R ∧
      ∀ x : Obj, total Obj.blocks (s.set i x) = x.blocks + b.blocks + R := by
  obtain ⟨R1, e1, g1⟩ := take1 h2
  have h3 : (s.set j .gone)[i]? = some a := by rw [List.getElem?_set_ne (Ne.symm hij), h1]
  obtain ⟨R, e2, g2⟩ := take1 h3
  have e3 : R1 = a.blocks + R := by
    have := g1 .gone
    rw [e2] at this
    rw [this]
    simp [Obj.blocks]
  refine ⟨R, by rw [e1, e3]; abel, fun x => ?_⟩
  have h4 : (s.set i x)[j]? = some b := by rw [List.getElem?_set_ne hij, h2]
  obtain ⟨R2, e4, g4⟩ := take1 h4
  have e5 : R2 = x.blocks + R := by
    have h5 := g4 .gone
    rw [List.set_comm _ _ hij, g2 x] at h5
    rw [h5]
    simp [Obj.blocks]
  rw [e4, e5]
  abel

omit [Allocator] in
theorem take3 {s : List Obj} {i j k : Nat} {a b c : Obj} (hij : i ≠ j) (hki : k ≠ i) (hkj : k ≠ j)
    (h1 : s[i]? = some a) (h2 : s[j]? = some b) (h3 : s[k]? = some c) :
    ∃ R, total Obj.blocks s = a.blocks + b.blocks + c.blocks + R ∧
      ∀ x : Obj, total Obj.blocks (s.set k x) = a.blocks + b.blocks + x.blocks + R := by
  obtain ⟨R1, e1, g1⟩ := take1 h1
  have k1 : (s.set i .gone)[k]? = some c := by rw [List.getElem?_set_ne (Ne.symm hki), h3]
  have k2 : (s.set i .gone)[j]? = some b := by rw [List.getElem?_set_ne hij, h2]
  obtain ⟨R, e2, g2⟩ := take2 hkj k1 k2
  have e3 : R1 = c.blocks + b.blocks + R := by
    have := g1 .gone
    rw [e2] at this
    rw [this]
    simp [Obj.blocks]
  refine ⟨R, by rw [e1, e3]; abel, fun x => ?_⟩
  have k3 : (s.set k x)[i]? = some a := by rw [List.getElem?_set_ne hki, h1]
  obtain ⟨R2, e4, g4⟩ := take1 k3
  have e5 : R2 = x.blocks + b.blocks + R := by
    have h5 := g4 .gone
    rw [List.set_comm _ _ hki, g2 x] at h5
    rw [h5]
    simp [Obj.blocks]
  rw [e4, e5]
  abel

omit [Allocator] in
theorem Owns.stop {α : Type} {P : Multiset Blk} {Q : α → Multiset Blk → Prop} :
    Owns True P (Memory.stop : M α) Q := fun _ => trivial

omit [Allocator] in
theorem inRows_spec {app : List (Nat × Bool)} {n : Nat} (h : inRows app n = true) :
    ∀ x ∈ app, x.1 < n := by
  intro x hx
  have := List.all_eq_true.1 h x hx
  simpa using this

/-- The claim about a call. -/
def StepOk (k : Nat) (s' : List Obj) (P : Multiset Blk) : Prop :=
  ∃ L, P = total Obj.blocks s' + L ∧ L.card = k

omit [Allocator] in
/-- A call that makes an object from another one, losing blocks. -/
theorem step_makes_lost {α : Type} {s : List Obj} {i k : Nat} {a : Obj} {c : M α} {mk : α → Obj}
    {X : Multiset Blk} (hX : a.blocks = X) (h : s[i]? = some a)
    (hc : Owns True X c fun b P => ∃ L, P = X + (mk b).blocks + L ∧ L.card = k) :
    Owns True (total Obj.blocks s) (c >>= fun b => (Pure.pure (mk b :: s) : M (List Obj))) (StepOk k) := by
  obtain ⟨R, e, _⟩ := take1 h
  rw [hX] at e
  refine Owns.call hc (R := R) e ?_
  rintro b _ ⟨L, rfl, hl⟩
  exact Owns.pure ⟨L, by simp only [total, e]; abel, hl⟩

omit [Allocator] in
theorem step_makes {α : Type} {s : List Obj} {i : Nat} {a : Obj} {c : M α} {mk : α → Obj}
    {X : Multiset Blk} (hX : a.blocks = X) (h : s[i]? = some a)
    (hc : Owns True X c fun b P => P = X + (mk b).blocks) :
    Owns True (total Obj.blocks s) (c >>= fun b => (Pure.pure (mk b :: s) : M (List Obj))) (StepOk 0) :=
  step_makes_lost hX h (Owns.mono hc fun b P e => ⟨0, by rw [e, add_zero], rfl⟩)

omit [Allocator] in
/-- A call that makes an object from nothing. -/
theorem step_new {α : Type} {s : List Obj} {c : M α} {mk : α → Obj}
    (hc : Owns True 0 c fun b P => P = (mk b).blocks) :
    Owns True (total Obj.blocks s) (c >>= fun b => (Pure.pure (mk b :: s) : M (List Obj))) (StepOk 0) := by
  refine Owns.call hc (R := total Obj.blocks s) (by abel) ?_
  rintro b _ rfl
  exact Owns.pure ⟨0, by simp only [total]; abel, rfl⟩

omit [Allocator] in
/-- A call that releases an object. -/
theorem step_release {s : List Obj} {i : Nat} {a : Obj} {c : M Unit} (h : s[i]? = some a)
    (hc : Owns True a.blocks c fun _ P => P = 0) :
    Owns True (total Obj.blocks s) (c >>= fun _ => (Pure.pure (s.set i .gone) : M (List Obj)))
      (StepOk 0) := by
  obtain ⟨R, e, g⟩ := take1 h
  refine Owns.call hc (R := R) e ?_
  rintro _ _ rfl
  exact Owns.pure ⟨0, by rw [g]; simp [Obj.blocks], rfl⟩

theorem step_owns (c : Cmd) (hs : c.Safe) (s : List Obj) :
    Owns True (total Obj.blocks s) (step c s) (StepOk c.lost) := by
  cases c with
  | newDense N => exact step_new (mk := .dense) (Owns.mono (newDense_owns N) fun _ _ h => h.1)
  | newEll N => exact step_new (mk := .ell) (Owns.mono (newEll_owns N) fun _ _ h => h.1)
  | randomEll N => exact step_new (mk := .ell) (randomEll_owns N)
  | newCsr N => exact step_new (mk := .csr) (Owns.mono (newCsr_owns N) fun _ _ h => h.1)
  | randomCsr N => exact step_new (mk := .csr) (randomCsr_owns N)
  | release i =>
    simp only [step]
    split
    · next A h => exact step_release h A.deallocate_owns
    · next A h => exact step_release h A.deallocate_owns
    · next A h => exact step_release h A.deallocate_owns
    · next p h => exact step_release h (Owns.free_last (P' := 0) (by simp [Obj.blocks]) rfl)
    · exact Owns.stop
  | copy i =>
    simp only [step]
    split
    · next A h => exact step_makes (mk := .dense) rfl h (Owns.mono A.copyNew_owns fun _ _ h => h.1)
    · next A h => exact step_makes (mk := .ell) rfl h (Owns.mono (A.newFrom_owns A.N) fun _ _ h => h.1)
    · next A h => exact step_makes (mk := .csr) rfl h (Owns.mono A.copyNew_owns fun _ _ h => h.1)
    · exact Owns.stop
  | array i =>
    simp only [step]
    split
    · next A h => exact step_makes (mk := .array) rfl h A.array_owns
    · next A h => exact step_makes (mk := .array) rfl h A.array_owns
    · next A h => exact step_makes (mk := .array) rfl h A.array_owns
    · exact Owns.stop
  | transposeEll i omp =>
    simp only [step]
    split
    · next A h => exact step_makes_lost (mk := .ell) rfl h (A.transposeNew_owns omp)
    · exact Owns.stop
  | transposeCsr i omp app =>
    simp only [step]
    split
    · next A h =>
      split
      · next ha =>
        exact step_makes (mk := .csr) rfl h
          (Owns.mono (A.transposeNew_owns omp app (inRows_spec ha)) fun _ _ h => h.1)
      · exact Owns.stop
    · exact Owns.stop
  | inverse i app =>
    simp only [step]
    split
    · next A h => exact step_makes (mk := .dense) rfl h A.inverse_owns
    · next A h => exact step_makes (mk := .ell) rfl h A.inverse_owns
    · next A h =>
      split
      · next ha => exact step_makes (mk := .csr) rfl h (A.inverse_owns app (inRows_spec ha))
      · exact Owns.stop
    · exact Owns.stop
  | reorder i =>
    simp only [step]
    split
    · next A h =>
      obtain ⟨R, e, _⟩ := take1 h
      refine Owns.call A.reorder_owns (R := R) e ?_
      rintro _ _ rfl
      exact Owns.pure ⟨0, by rw [e]; simp [Obj.blocks], rfl⟩
    · next A h =>
      obtain ⟨R, e, _⟩ := take1 h
      refine Owns.call A.reorder_owns (R := R) e ?_
      rintro _ _ rfl
      exact Owns.pure ⟨0, by rw [e]; simp [Obj.blocks], rfl⟩
    · exact Owns.stop
  | diagonalize i k cplx dc fits app =>
    simp only [step]
    split
    · exact Owns.stop
    · next hik =>
      split
      · next A V h1 h2 =>
        obtain ⟨R, e, _⟩ := take2 hik h1 h2
        refine Owns.call (A.diagonalize_owns cplx dc V) (R := R) e ?_
        rintro _ _ rfl
        exact Owns.pure ⟨0, by rw [e]; simp [Obj.blocks], rfl⟩
      · next A V h1 h2 =>
        obtain ⟨R, e, _⟩ := take2 hik h1 h2
        refine Owns.call (A.diagonalize_owns cplx dc V) (R := R) e ?_
        rintro _ _ rfl
        exact Owns.pure ⟨0, by rw [e]; simp [Obj.blocks], rfl⟩
      · next A V h1 h2 =>
        split
        · next ha =>
          obtain ⟨R, e, _⟩ := take2 hik h1 h2
          have hd : Owns True (A.blocks + V.blocks) (A.diagonalize cplx dc fits app V) fun _ P =>
              P = A.blocks + V.blocks := fun F =>
            Res.wp_mono' (A.diagonalize_owns cplx dc fits app V (inRows_spec ha) F) (fun _ => trivial)
              fun _ h => h
          refine Owns.call hd (R := R) e ?_
          rintro _ _ rfl
          exact Owns.pure ⟨0, by rw [e]; simp [Obj.blocks], rfl⟩
        · exact Owns.stop
      · exact Owns.stop
  | addCsr i j threads es =>
    simp only [step]
    split
    · exact Owns.stop
    · next hij =>
      split
      · next A B h1 h2 =>
        obtain ⟨R, e, g⟩ := take2 hij h1 h2
        refine Owns.call (A.add_owns threads es B hs) (R := R) e ?_
        rintro A' _ ⟨rfl, _, _⟩
        exact Owns.pure ⟨0, by rw [g]; simp [Obj.blocks], rfl⟩
      · exact Owns.stop
  | multiply i j k plain threads app es =>
    simp only [step]
    split
    · exact Owns.stop
    · next hk =>
      rw [not_or] at hk
      split
      · next A B C h1 h2 h3 =>
        by_cases hij : i = j
        · subst hij
          have hAB : A = B := by
            rw [h1] at h2
            simpa using h2
          obtain ⟨R, e, _⟩ := take2 hk.1 h1 h3
          refine Owns.call (A.multiply_owns (decide (i = i)) plain B C fun _ => hAB) (R := R)
            (by rw [e]; simp [ops, Obj.blocks]) ?_
          rintro _ _ rfl
          exact Owns.pure ⟨0, by rw [e]; simp [ops, Obj.blocks], rfl⟩
        · obtain ⟨R, e, _⟩ := take3 hij (Ne.symm hk.1) (Ne.symm hk.2) h1 h2 h3
          refine Owns.call (A.multiply_owns (decide (i = j)) plain B C fun h => absurd (by simpa using h) hij)
            (R := R) (by rw [e]; simp [ops, hij, Obj.blocks]) ?_
          rintro _ _ rfl
          exact Owns.pure ⟨0, by rw [e]; simp [ops, hij, Obj.blocks], rfl⟩
      · next A B C h1 h2 h3 =>
        split
        · next ha =>
          by_cases hij : i = j
          · subst hij
            have hAB : A = B := by
              rw [h1] at h2
              simpa using h2
            obtain ⟨R, e, g⟩ := take2 (Ne.symm hk.1) h3 h1
            refine Owns.call (A.multiply_owns (decide (i = i)) plain threads app es B C (fun _ => hAB)
              (inRows_spec ha) hs) (R := R) (by rw [e]; simp [ops, Obj.blocks]; abel) ?_
            rintro C' _ rfl
            exact Owns.pure ⟨0, by rw [g]; simp [ops, Obj.blocks]; abel, rfl⟩
          · obtain ⟨R, e, g⟩ := take3 hij (Ne.symm hk.1) (Ne.symm hk.2) h1 h2 h3
            refine Owns.call (A.multiply_owns (decide (i = j)) plain threads app es B C
              (fun h => absurd (by simpa using h) hij) (inRows_spec ha) hs)
              (R := R) (by rw [e]; simp [ops, hij, Obj.blocks]) ?_
            rintro C' _ rfl
            exact Owns.pure ⟨0, by rw [g]; simp [ops, hij, Obj.blocks], rfl⟩
        · exact Owns.stop
      · exact Owns.stop
  | extractCsr i n full =>
    simp only [step]
    split
    · next A h =>
      refine step_makes_lost (mk := .csr) rfl h (Owns.mono (A.extract_owns n full) ?_)
      rintro B P ⟨L, e, hl, _⟩
      exact ⟨L, e, hl⟩
    · exact Owns.stop
  | setRowCsr i r full =>
    simp only [step]
    split
    · next A h =>
      split
      · next hr =>
        obtain ⟨R, e, g⟩ := take1 h
        refine Owns.call (A.setRow_owns full r hr) (R := R) e ?_
        rintro A' _ ⟨rfl, _⟩
        exact Owns.pure ⟨0, by rw [g]; simp [Obj.blocks], rfl⟩
      · exact Owns.stop
    · exact Owns.stop
  | convertToCsr i N full =>
    simp only [step]
    split
    · next A h => exact step_makes (mk := .csr) rfl h (convertCsr_owns N A.array_owns)
    · next A h => exact step_makes (mk := .csr) rfl h (convertCsr_owns N A.array_owns)
    · next A h => exact step_makes (mk := .csr) rfl h (convertCsr_owns N A.array_owns)
    · exact Owns.stop

theorem run_owns : ∀ (p : List Cmd) (s : List Obj), (∀ c ∈ p, c.Safe) →
    Owns True (total Obj.blocks s) (run p s) (StepOk (p.map Cmd.lost).sum)
  | [], s, _ => Owns.pure ⟨0, by simp, rfl⟩
  | c :: p, s, h => by
    refine Owns.bind (step_owns c (h c (by simp)) s) ?_
    rintro s' _ ⟨L, rfl, hl⟩
    refine Owns.frame (run_owns p s' fun d hd => h d (by simp [hd])) (R := L) rfl ?_
    rintro s'' _ ⟨L', rfl, hl'⟩
    refine ⟨L' + L, by abel, ?_⟩
    simp only [Multiset.card_add, hl, hl', List.map_cons, List.sum_cons]
    omega

/-- Everything a program still holds is released. -/
def releaseAll : List Obj → M Unit :=
  each fun o => match o with
    | .dense A => A.deallocate
    | .ell A => A.deallocate
    | .csr A => A.deallocate
    | .array p => free p
    | .gone => pure ()

omit [Allocator] in
theorem releaseAll_owns (s : List Obj) : Owns E (total Obj.blocks s) (releaseAll s) fun _ P => P = 0 := by
  refine Owns.each ?_ s
  rintro (A | A | A | p | _)
  · exact A.deallocate_owns
  · exact A.deallocate_owns
  · exact A.deallocate_owns
  · exact Owns.free_last (P' := 0) (by simp [Obj.blocks]) rfl
  · exact Owns.pure rfl

end Memory
end Bml
