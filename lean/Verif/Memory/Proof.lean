import Verif.Memory.Model

/-!
# Proofs about the memory of dense, ELLPACK and CSR calls
-/

namespace Bml
namespace Memory

variable [Allocator] {E : Prop}

/-- Equality of sums of blocks. -/
macro "blk" : tactic =>
  `(tactic| first
    | rfl
    | abel1
    | (simp only [Dom.blocks, DenseO.blocks, EllO.blocks, Row.blocks, CsrO.blocks, Table.blocks, total,
        add_zero, zero_add] <;> abel1))

omit [Allocator] in
theorem Owns.useR {α : Type} {P X R : Multiset Blk} {f : Unit → M α} {Q : α → Multiset Blk → Prop}
    (e : P = X + R) (h : Owns E P (f ()) Q) : Owns E P (Memory.use X >>= f) Q :=
  Owns.use (by rw [e]; exact Multiset.le_add_right _ _) h

omit [Allocator] in
theorem Owns.useL {P X R : Multiset Blk} {Q : Unit → Multiset Blk → Prop}
    (e : P = X + R) (h : Q () P) : Owns E P (Memory.use X) Q :=
  Owns.use_last (by rw [e]; exact Multiset.le_add_right _ _) h

omit [Allocator] in
theorem Owns.congr {α : Type} {P P' : Multiset Blk} {c : M α} {Q : α → Multiset Blk → Prop}
    (e : P = P') (h : Owns E P' c Q) : Owns E P c Q := e ▸ h

/-! ## Dense -/

theorem defaultDomain_owns : Owns E 0 defaultDomain fun d P => P = d.blocks := by
  unfold defaultDomain
  refine Owns.malloc fun a => Owns.malloc fun b => Owns.malloc fun c => Owns.malloc fun d =>
    Owns.malloc fun e => Owns.malloc fun f => Owns.pure ?_
  blk

omit [Allocator] in
theorem Dom.deallocate_owns (d : Dom) : Owns E d.blocks d.deallocate fun _ P => P = 0 := by
  unfold Dom.deallocate
  refine Owns.useR (R := {d.rmin} + {d.rmax} + {d.ext} + {d.displ} + {d.elem}) (by blk) ?_
  exact Owns.freeAll_last (P' := 0) (by blk) rfl

theorem newDense_owns (N : Nat) : Owns E 0 (newDense N) fun A P => P = A.blocks ∧ A.N = N := by
  unfold newDense
  refine Owns.malloc fun a => Owns.malloc fun b => ?_
  refine Owns.call defaultDomain_owns (R := {b} + ({a} + 0)) (by blk) ?_
  rintro d _ rfl
  refine Owns.call defaultDomain_owns (R := d.blocks + ({b} + ({a} + 0))) (by blk) ?_
  rintro d2 _ rfl
  exact Owns.pure ⟨by blk, rfl⟩

omit [Allocator] in
theorem DenseO.deallocate_owns (A : DenseO) : Owns E A.blocks A.deallocate fun _ P => P = 0 := by
  unfold DenseO.deallocate
  refine Owns.useR (R := {A.matrix} + A.dom.blocks + A.dom2.blocks) (by blk) ?_
  refine Owns.call A.dom.deallocate_owns (R := {A.self} + {A.matrix} + A.dom2.blocks) (by blk) ?_
  rintro _ _ rfl
  refine Owns.call A.dom2.deallocate_owns (R := {A.self} + {A.matrix}) (by blk) ?_
  rintro _ _ rfl
  refine Owns.free (P' := {A.self}) (by blk) ?_
  exact Owns.free_last (P' := 0) (by blk) rfl

theorem DenseO.copyNew_owns (A : DenseO) :
    Owns E A.blocks A.copyNew fun B P => P = A.blocks + B.blocks ∧ B.N = A.N := by
  unfold DenseO.copyNew
  refine Owns.useR (R := 0) (by blk) ?_
  refine Owns.call (newDense_owns A.N) (R := A.blocks) (by blk) ?_
  rintro B _ ⟨rfl, e⟩
  refine Owns.useR (R := 0) (by blk) ?_
  exact Owns.pure ⟨by blk, e⟩

theorem DenseO.array_owns (A : DenseO) : Owns E A.blocks A.array fun p P => P = A.blocks + {p} := by
  unfold DenseO.array
  refine Owns.useR (R := 0) (by blk) ?_
  refine Owns.malloc fun p => ?_
  refine Owns.useR (R := 0) (by blk) ?_
  exact Owns.pure (by blk)

theorem DenseO.inverseInplace_owns (A : DenseO) :
    Owns E A.blocks A.inverseInplace fun _ P => P = A.blocks := by
  unfold DenseO.inverseInplace
  refine Owns.malloc fun p => Owns.malloc fun q => ?_
  refine Owns.useR (R := 0) (by blk) ?_
  refine Owns.free (P' := {p} + A.blocks) (by blk) ?_
  exact Owns.free_last (P' := A.blocks) (by blk) rfl

theorem DenseO.inverse_owns (A : DenseO) :
    Owns E A.blocks A.inverse fun B P => P = A.blocks + B.blocks := by
  unfold DenseO.inverse
  refine Owns.bind A.copyNew_owns ?_
  rintro B _ ⟨rfl, _⟩
  refine Owns.call B.inverseInplace_owns (R := A.blocks) (by blk) ?_
  rintro _ _ rfl
  exact Owns.pure (by blk)

theorem DenseO.diagonalize_owns (cplx dc : Bool) (A V : DenseO) :
    Owns E (A.blocks + V.blocks) (A.diagonalize cplx dc V) fun _ P => P = A.blocks + V.blocks := by
  unfold DenseO.diagonalize
  split
  · refine Owns.malloc fun a => Owns.malloc fun b => Owns.malloc fun c => Owns.malloc fun d =>
      Owns.malloc fun e => Owns.malloc fun f => Owns.malloc fun g => ?_
    refine Owns.useR (R := 0) (by blk) ?_
    exact Owns.freeAll_last (P' := A.blocks + V.blocks) (by simp only [total]; abel) rfl
  · split
    · refine Owns.malloc fun a => Owns.malloc fun b => Owns.malloc fun c => Owns.malloc fun d => ?_
      refine Owns.useR (R := V.blocks) (by blk) ?_
      refine Owns.free (P' := {c} + {b} + {a} + (A.blocks + V.blocks)) (by blk) ?_
      refine Owns.useR (R := A.blocks + {c}) (by blk) ?_
      exact Owns.freeAll_last (P' := A.blocks + V.blocks) (by simp only [total]; abel) rfl
    · refine Owns.malloc fun a => Owns.malloc fun b => Owns.malloc fun c => ?_
      refine Owns.useR (R := 0) (by blk) ?_
      exact Owns.freeAll_last (P' := A.blocks + V.blocks) (by simp only [total]; abel) rfl

theorem DenseO.reorder_owns (A : DenseO) : Owns E A.blocks A.reorder fun _ P => P = A.blocks := by
  unfold DenseO.reorder
  refine Owns.bind A.copyNew_owns ?_
  rintro B _ ⟨rfl, _⟩
  refine Owns.useR (R := 0) (by blk) ?_
  refine Owns.frame B.deallocate_owns (R := A.blocks) (by blk) ?_
  rintro _ _ rfl
  blk

/-! ## ELLPACK -/

theorem newEll_owns (N : Nat) : Owns E 0 (newEll N) fun A P => P = A.blocks ∧ A.N = N := by
  unfold newEll
  refine Owns.malloc fun a => Owns.malloc fun b => Owns.malloc fun c => Owns.malloc fun d => ?_
  refine Owns.call defaultDomain_owns (R := {d} + ({c} + ({b} + ({a} + 0)))) (by blk) ?_
  rintro x _ rfl
  refine Owns.call defaultDomain_owns (R := x.blocks + ({d} + ({c} + ({b} + ({a} + 0))))) (by blk) ?_
  rintro y _ rfl
  exact Owns.pure ⟨by blk, rfl⟩

theorem randomEll_owns (N : Nat) : Owns E 0 (randomEll N) fun A P => P = A.blocks := by
  unfold randomEll
  refine Owns.bind (newEll_owns N) ?_
  rintro A _ ⟨rfl, _⟩
  refine Owns.malloc fun a => Owns.malloc fun b => ?_
  refine Owns.useR (R := 0) (by blk) ?_
  refine Owns.free (P' := {b} + A.blocks) (by blk) ?_
  refine Owns.free (P' := A.blocks) (by blk) ?_
  exact Owns.pure rfl

omit [Allocator] in
theorem EllO.deallocate_owns (A : EllO) : Owns E A.blocks A.deallocate fun _ P => P = 0 := by
  unfold EllO.deallocate
  refine Owns.useR (R := {A.index} + {A.nnz} + {A.value} + A.dom.blocks + A.dom2.blocks) (by blk) ?_
  refine Owns.call A.dom.deallocate_owns
    (R := {A.self} + {A.index} + {A.nnz} + {A.value} + A.dom2.blocks) (by blk) ?_
  rintro _ _ rfl
  refine Owns.call A.dom2.deallocate_owns (R := {A.self} + {A.index} + {A.nnz} + {A.value}) (by blk) ?_
  rintro _ _ rfl
  refine Owns.free (P' := {A.self} + {A.index} + {A.nnz}) (by blk) ?_
  refine Owns.free (P' := {A.self} + {A.nnz}) (by blk) ?_
  refine Owns.free (P' := {A.self}) (by blk) ?_
  exact Owns.free_last (P' := 0) (by blk) rfl

theorem EllO.newFrom_owns (A : EllO) (N : Nat) :
    Owns E A.blocks (A.newFrom N) fun B P => P = A.blocks + B.blocks ∧ B.N = N := by
  unfold EllO.newFrom
  refine Owns.useR (R := 0) (by blk) ?_
  refine Owns.call (newEll_owns N) (R := A.blocks) (by blk) ?_
  rintro B _ ⟨rfl, e⟩
  refine Owns.useR (R := 0) (by blk) ?_
  exact Owns.pure ⟨by blk, e⟩

/-- With locks one block is lost. -/
theorem EllO.transposeNew_owns (omp : Bool) (A : EllO) :
    Owns E A.blocks (A.transposeNew omp) fun B P =>
      ∃ L, P = A.blocks + B.blocks + L ∧ L.card = if omp then 1 else 0 := by
  unfold EllO.transposeNew
  refine Owns.useR (R := 0) (by blk) ?_
  refine Owns.call (newEll_owns A.N) (R := A.blocks) (by blk) ?_
  rintro B _ ⟨rfl, e⟩
  cases omp
  · refine Owns.useR (R := 0) (by blk) ?_
    exact Owns.pure ⟨0, by blk, rfl⟩
  · refine Owns.malloc fun p => ?_
    refine Owns.useR (R := 0) (by blk) ?_
    exact Owns.pure ⟨{p}, by blk, rfl⟩

theorem EllO.array_owns (A : EllO) : Owns E A.blocks A.array fun p P => P = A.blocks + {p} := by
  unfold EllO.array
  refine Owns.useR (R := 0) (by blk) ?_
  refine Owns.malloc fun p => ?_
  refine Owns.useR (R := 0) (by blk) ?_
  exact Owns.pure (by blk)

theorem EllO.x2_owns (X X2 : EllO) :
    Owns E (X.blocks + X2.blocks) (X.x2 X2) fun p P => P = X.blocks + X2.blocks + {p} := by
  unfold EllO.x2
  refine Owns.malloc fun p => ?_
  refine Owns.useR (R := 0) (by blk) ?_
  exact Owns.pure (by blk)

/-- What an optional block owns. -/
def optBlk : Option Blk → Multiset Blk
  | none => 0
  | some p => {p}

omit [Allocator] in
theorem freeOpt_owns (t : Option Blk) : Owns E (optBlk t) (freeOpt t) fun _ P => P = 0 := by
  cases t with
  | none => exact Owns.pure rfl
  | some p => exact Owns.free_last (P' := 0) (by simp [optBlk]) rfl

omit [Allocator] in
theorem Owns.map {α β : Type} {P : Multiset Blk} {c : M α} {g : α → β} {Q : β → Multiset Blk → Prop}
    (h : Owns E P c fun a P' => Q (g a) P') : Owns E P (g <$> c) Q :=
  Owns.bind h fun _ _ h => Owns.pure h

/-- The operands of a product: one matrix when it is a square. -/
def ops (square : Bool) (A B : Multiset Blk) : Multiset Blk := if square then A else A + B

theorem EllO.multiply_owns (square plain : Bool) (A B C : EllO) (hs : square = true → A = B) :
    Owns E (ops square A.blocks B.blocks + C.blocks) (A.multiply square plain B C) fun _ P =>
      P = ops square A.blocks B.blocks + C.blocks := by
  have hcov : ∃ R, ops square A.blocks B.blocks = A.blocks + R := by
    cases square
    · exact ⟨B.blocks, rfl⟩
    · exact ⟨0, by simp [ops]⟩
  have huni : A.blocks ∪ B.blocks ≤ ops square A.blocks B.blocks := by
    cases square
    · exact Multiset.union_le (Multiset.le_add_right _ _) (Multiset.le_add_left _ _)
    · rw [← hs rfl]; simp [ops]
  obtain ⟨R, hR⟩ := hcov
  unfold EllO.multiply
  refine Owns.bind (Q1 := fun t P => P = ops square A.blocks B.blocks + C.blocks + optBlk t) ?_ ?_
  · split
    · refine Owns.map ?_
      refine Owns.frame (A.x2_owns C) (R := R) (by rw [hR]; blk) ?_
      rintro p _ rfl
      rw [hR]
      simp only [optBlk]
      abel
    · refine Owns.useR (R := R + {C.index} + {C.nnz} + {C.value} + C.dom.blocks + C.dom2.blocks)
        (by rw [hR]; simp only [EllO.blocks]; abel) ?_
      refine Owns.call (newEll_owns C.N) (R := ops square A.blocks B.blocks + C.blocks) (by blk) ?_
      rintro A2 _ ⟨rfl, _⟩
      refine Owns.bind (Q1 := fun t P =>
        P = ops square A.blocks B.blocks + C.blocks + A2.blocks + optBlk t) ?_ ?_
      · split
        · refine Owns.map ?_
          refine Owns.frame (A.x2_owns A2) (R := R + C.blocks) (by rw [hR]; abel) ?_
          rintro p _ rfl
          rw [hR]
          simp only [optBlk]
          abel
        · refine Owns.use ?_ ?_
          · refine le_trans huni ?_
            refine le_trans (Multiset.le_add_right _ C.blocks) (Multiset.le_add_left _ _)
          refine Owns.useR (R := ops square A.blocks B.blocks + C.blocks) (by abel) ?_
          exact Owns.pure (by simp only [optBlk]; abel)
      · rintro t _ rfl
        refine Owns.useR (R := ops square A.blocks B.blocks + optBlk t) (by abel) ?_
        refine Owns.call A2.deallocate_owns
          (R := ops square A.blocks B.blocks + C.blocks + optBlk t) (by abel) ?_
        rintro _ _ rfl
        exact Owns.pure (by abel)
  · rintro t _ rfl
    refine Owns.frame (freeOpt_owns t) (R := ops square A.blocks B.blocks + C.blocks) (by abel) ?_
    rintro _ _ rfl
    abel

theorem EllO.inverse_owns (A : EllO) :
    Owns E A.blocks A.inverse fun B P => P = A.blocks + B.blocks := by
  unfold EllO.inverse
  refine Owns.bind A.array_owns ?_
  rintro a _ rfl
  refine Owns.call (newDense_owns A.N) (R := A.blocks + {a}) (by abel) ?_
  rintro D _ ⟨rfl, _⟩
  refine Owns.useR (R := A.blocks) (by abel) ?_
  refine Owns.free (P' := D.blocks + A.blocks) (by abel) ?_
  refine Owns.call D.inverseInplace_owns (R := A.blocks) (by abel) ?_
  rintro _ _ rfl
  refine Owns.call D.array_owns (R := A.blocks) (by abel) ?_
  rintro b _ rfl
  refine Owns.call D.deallocate_owns (R := A.blocks + {b}) (by abel) ?_
  rintro _ _ rfl
  refine Owns.call (newEll_owns A.N) (R := A.blocks + {b}) (by abel) ?_
  rintro B _ ⟨rfl, _⟩
  refine Owns.useR (R := A.blocks) (by abel) ?_
  refine Owns.free (P' := B.blocks + A.blocks) (by abel) ?_
  exact Owns.pure (by abel)

theorem EllO.diagonalize_owns (cplx dc : Bool) (A V : EllO) :
    Owns E (A.blocks + V.blocks) (A.diagonalize cplx dc V) fun _ P => P = A.blocks + V.blocks := by
  unfold EllO.diagonalize
  refine Owns.call A.array_owns (R := V.blocks) (by abel) ?_
  rintro a _ rfl
  refine Owns.call (newDense_owns A.N) (R := A.blocks + V.blocks + {a}) (by abel) ?_
  rintro D _ ⟨rfl, _⟩
  refine Owns.useR (R := A.blocks + V.blocks) (by abel) ?_
  refine Owns.free (P' := D.blocks + A.blocks + V.blocks) (by abel) ?_
  refine Owns.call (newDense_owns A.N) (R := D.blocks + A.blocks + V.blocks) (by abel) ?_
  rintro W _ ⟨rfl, _⟩
  refine Owns.call (D.diagonalize_owns cplx dc W) (R := A.blocks + V.blocks) (by abel) ?_
  rintro _ _ rfl
  refine Owns.call D.deallocate_owns (R := W.blocks + A.blocks + V.blocks) (by abel) ?_
  rintro _ _ rfl
  refine Owns.call W.array_owns (R := A.blocks + V.blocks) (by abel) ?_
  rintro w _ rfl
  refine Owns.call W.deallocate_owns (R := A.blocks + V.blocks + {w}) (by abel) ?_
  rintro _ _ rfl
  refine Owns.call (newEll_owns A.N) (R := A.blocks + V.blocks + {w}) (by abel) ?_
  rintro T _ ⟨rfl, _⟩
  refine Owns.useR (R := A.blocks + V.blocks) (by abel) ?_
  refine Owns.free (P' := T.blocks + A.blocks + V.blocks) (by abel) ?_
  refine Owns.useR (R := A.blocks) (by abel) ?_
  refine Owns.frame T.deallocate_owns (R := A.blocks + V.blocks) (by abel) ?_
  rintro _ _ rfl
  abel

theorem EllO.reorder_owns (A : EllO) : Owns E A.blocks A.reorder fun _ P => P = A.blocks := by
  unfold EllO.reorder
  refine Owns.bind (A.newFrom_owns A.N) ?_
  rintro B _ ⟨rfl, _⟩
  refine Owns.useR (R := 0) (by blk) ?_
  refine Owns.call B.deallocate_owns (R := A.blocks) (by abel) ?_
  rintro _ _ rfl
  exact Owns.useL (R := 0) (by abel) (by abel)

/-! ## CSR -/

theorem newRow_owns : Owns E 0 newRow fun r P => P = r.blocks := by
  unfold newRow
  exact Owns.malloc fun a => Owns.malloc fun b => Owns.malloc fun c => Owns.pure (by blk)

omit [Allocator] in
theorem Row.deallocate_owns (r : Row) : Owns E r.blocks r.deallocate fun _ P => P = 0 := by
  unfold Row.deallocate
  refine Owns.useR (R := {r.cols} + {r.vals}) (by blk) ?_
  exact Owns.freeAll_last (P' := 0) (by blk) rfl

theorem newCsr_owns (N : Nat) : Owns E 0 (newCsr N) fun A P => P = A.blocks ∧ A.rows.length = N := by
  unfold newCsr
  refine Owns.malloc fun a => Owns.malloc fun b => ?_
  refine Owns.call (Owns.times newRow_owns N) (R := {b} + ({a} + 0)) (by blk) ?_
  rintro L _ ⟨rfl, e⟩
  exact Owns.pure ⟨by blk, e⟩

theorem randomCsr_owns (N : Nat) : Owns E 0 (randomCsr N) fun A P => P = A.blocks := by
  unfold randomCsr
  refine Owns.bind (newCsr_owns N) ?_
  rintro A _ ⟨rfl, _⟩
  refine Owns.malloc fun a => Owns.malloc fun b => ?_
  refine Owns.useR (R := 0) (by blk) ?_
  refine Owns.free (P' := {b} + A.blocks) (by blk) ?_
  refine Owns.free (P' := A.blocks) (by blk) ?_
  exact Owns.pure rfl

omit [Allocator] in
theorem CsrO.deallocate_owns (A : CsrO) : Owns E A.blocks A.deallocate fun _ P => P = 0 := by
  unfold CsrO.deallocate
  refine Owns.useR (R := total Row.blocks A.rows) (by blk) ?_
  refine Owns.call (Owns.each Row.deallocate_owns A.rows) (R := {A.self} + {A.data}) (by blk) ?_
  rintro _ _ rfl
  refine Owns.free (P' := {A.self}) (by blk) ?_
  exact Owns.free_last (P' := 0) (by blk) rfl

theorem Row.setNew_owns (full : Bool) (r : Row) :
    Owns E r.blocks (r.setNew full) fun r' P => P = r'.blocks := by
  unfold Row.setNew
  refine Owns.useR (R := 0) (by blk) ?_
  cases full
  · exact Owns.useR (R := 0) (by blk) (Owns.pure rfl)
  · show Owns E _ ((do Memory.free r.cols; Memory.malloc) >>= _) _
    refine Owns.bind (Q1 := fun p P => P = {p} + {r.self} + {r.vals}) ?_ ?_
    · exact Owns.free (P' := {r.self} + {r.vals}) (by blk) (Owns.malloc_last fun p => by abel)
    rintro c _ rfl
    show Owns E _ ((do Memory.free r.vals; Memory.malloc) >>= _) _
    refine Owns.bind (Q1 := fun p P => P = {p} + {r.self} + {c}) ?_ ?_
    · exact Owns.free (P' := {r.self} + {c}) (by blk) (Owns.malloc_last fun p => by abel)
    rintro v _ rfl
    exact Owns.useR (R := {r.self}) (by abel) (Owns.pure (by blk))

omit [Allocator] in
theorem total_split {α : Type} (f : α → Multiset Blk) :
    ∀ (L : List α) (i : Nat) (a : α), L[i]? = some a →
      ∃ R, total f L = f a + R ∧ ∀ b, total f (L.set i b) = f b + R
  | [], _, _, h => by simp at h
  | x :: L, 0, a, h => by
    simp at h
    subst h
    exact ⟨total f L, rfl, fun b => rfl⟩
  | x :: L, i + 1, a, h => by
    obtain ⟨R, h1, h2⟩ := total_split f L i a (by simpa using h)
    refine ⟨f x + R, ?_, fun b => ?_⟩
    · simp only [total, h1]; abel
    · simp only [List.set_cons_succ, total, h2]; abel

theorem appends_owns : ∀ (L : List (Nat × Bool)) (rows : List Row),
    (∀ x ∈ L, x.1 < rows.length) →
      Owns E (total Row.blocks rows) (appends L rows) fun rows' P =>
        P = total Row.blocks rows' ∧ rows'.length = rows.length
  | [], rows, _ => Owns.pure ⟨rfl, rfl⟩
  | (i, full) :: L, rows, h => by
    have hi : i < rows.length := h (i, full) (by simp)
    have hr : rows[i]? = some rows[i] := List.getElem?_eq_getElem hi
    show Owns E _ (match rows[i]? with
      | none => crash
      | some r => do
        let r' ← r.setNew full
        appends L (rows.set i r')) _
    rw [hr]
    obtain ⟨R, h1, h2⟩ := total_split Row.blocks rows i _ hr
    refine Owns.call (Row.setNew_owns full rows[i]) (R := R) h1 ?_
    rintro r' _ rfl
    rw [← h2]
    refine Owns.mono (appends_owns L (rows.set i r') fun x hx => ?_) ?_
    · rw [List.length_set]
      exact h x (by simp [hx])
    · rintro rows' P ⟨rfl, e⟩
      exact ⟨rfl, by rw [e, List.length_set]⟩

theorem CsrO.setRow_owns (full : Bool) (i : Nat) (A : CsrO) (hi : i < A.rows.length) :
    Owns E A.blocks (A.setRow full i) fun B P => P = B.blocks ∧ B.rows.length = A.rows.length := by
  have hr : A.rows[i]? = some A.rows[i] := List.getElem?_eq_getElem hi
  unfold CsrO.setRow
  rw [hr]
  obtain ⟨R, h1, h2⟩ := total_split Row.blocks A.rows i _ hr
  refine Owns.useR (R := 0) (by blk) ?_
  refine Owns.malloc fun c => ?_
  refine Owns.call (Row.setNew_owns full A.rows[i]) (R := {A.self} + {A.data} + R + {c})
    (by simp only [CsrO.blocks, h1]; abel) ?_
  rintro r' _ rfl
  refine Owns.useR (R := r'.blocks + ({A.self} + {A.data} + R)) (by abel) ?_
  refine Owns.free (P' := r'.blocks + ({A.self} + {A.data} + R)) (by abel) ?_
  refine Owns.pure ⟨?_, by simp⟩
  simp only [CsrO.blocks, h2]
  abel

theorem CsrO.copyNew_owns (A : CsrO) :
    Owns E A.blocks A.copyNew fun B P => P = A.blocks + B.blocks ∧ B.rows.length = A.rows.length := by
  unfold CsrO.copyNew
  refine Owns.useR (R := 0) (by abel) ?_
  refine Owns.call (newCsr_owns A.rows.length) (R := A.blocks) (by abel) ?_
  rintro B _ ⟨rfl, e⟩
  refine Owns.useR (R := 0) (by abel) ?_
  exact Owns.pure ⟨by abel, e⟩

theorem CsrO.transposeNew_owns (omp : Bool) (app : List (Nat × Bool)) (A : CsrO)
    (h : ∀ x ∈ app, x.1 < A.rows.length) :
    Owns E A.blocks (A.transposeNew omp app) fun B P =>
      P = A.blocks + B.blocks ∧ B.rows.length = A.rows.length := by
  unfold CsrO.transposeNew
  refine Owns.useR (R := 0) (by abel) ?_
  refine Owns.call (newCsr_owns A.rows.length) (R := A.blocks) (by abel) ?_
  rintro B _ ⟨rfl, e⟩
  cases omp
  · refine Owns.call (appends_owns app B.rows (by rw [e]; exact h)) (R := {B.self} + {B.data} + A.blocks)
      (by simp only [CsrO.blocks]; abel) ?_
    rintro rows _ ⟨rfl, e'⟩
    exact Owns.pure ⟨by simp only [CsrO.blocks]; abel, by rw [← e, ← e']⟩
  · refine Owns.malloc fun l => ?_
    refine Owns.useR (R := B.blocks) (by abel) ?_
    refine Owns.call (appends_owns app B.rows (by rw [e]; exact h))
      (R := {B.self} + {B.data} + A.blocks + {l}) (by simp only [CsrO.blocks]; abel) ?_
    rintro rows _ ⟨rfl, e'⟩
    refine Owns.free (P' := total Row.blocks rows + ({B.self} + {B.data} + A.blocks)) (by abel) ?_
    exact Owns.pure ⟨by simp only [CsrO.blocks]; abel, by rw [← e, ← e']⟩

theorem importCsr_owns (N : Nat) (a : Blk) (app : List (Nat × Bool)) (h : ∀ x ∈ app, x.1 < N) :
    Owns E {a} (importCsr N a app) fun B P => P = {a} + B.blocks ∧ B.rows.length = N := by
  unfold importCsr
  refine Owns.call (newCsr_owns N) (R := {a}) (by abel) ?_
  rintro B _ ⟨rfl, e⟩
  refine Owns.useR (R := B.blocks) (by abel) ?_
  refine Owns.call (appends_owns app B.rows (by rw [e]; exact h)) (R := {B.self} + {B.data} + {a})
    (by simp only [CsrO.blocks]; abel) ?_
  rintro rows _ ⟨rfl, e'⟩
  exact Owns.pure ⟨by simp only [CsrO.blocks]; abel, by rw [← e, ← e']⟩

theorem CsrO.array_owns (A : CsrO) : Owns E A.blocks A.array fun p P => P = A.blocks + {p} := by
  unfold CsrO.array
  refine Owns.useR (R := 0) (by abel) ?_
  refine Owns.malloc fun p => ?_
  refine Owns.useR (R := 0) (by abel) ?_
  exact Owns.pure (by abel)

theorem newTable_owns : Owns E 0 newTable fun t P => P = t.blocks := by
  unfold newTable
  exact Owns.malloc fun a => Owns.malloc fun b => Owns.malloc fun c => Owns.pure (by blk)

omit [Allocator] in
theorem Table.deallocate_owns (t : Table) : Owns E t.blocks t.deallocate fun _ P => P = 0 := by
  unfold Table.deallocate
  refine Owns.useR (R := {t.slots} + {t.storage}) (by blk) ?_
  exact Owns.freeAll_last (P' := 0) (by blk) rfl

/-- No entry is found after the row has grown. -/
def EntriesSafe : List Entry → Prop
  | [] => True
  | .found :: L => EntriesSafe L
  | .append false :: L => EntriesSafe L
  | .append true :: L => ∀ e ∈ L, e ≠ .found

theorem addEntries_nofound (vals : Blk) : ∀ (L : List Entry) (r : Row), (∀ e ∈ L, e ≠ .found) →
    Owns E r.blocks (addEntries vals L r) fun r' P => P = r'.blocks
  | [], r, _ => Owns.pure rfl
  | .found :: L, r, h => absurd rfl (h .found (by simp))
  | .append full :: L, r, h => by
    refine Owns.bind (Row.setNew_owns full r) ?_
    rintro r' _ rfl
    exact addEntries_nofound vals L r' fun e he => h e (by simp [he])

theorem addEntries_owns : ∀ (L : List Entry) (r : Row), EntriesSafe L →
    Owns E r.blocks (addEntries r.vals L r) fun r' P => P = r'.blocks
  | [], r, _ => Owns.pure rfl
  | .found :: L, r, h => by
    refine Owns.useR (R := {r.self} + {r.cols}) (by blk) ?_
    exact addEntries_owns L r h
  | .append false :: L, r, h => by
    show Owns E _ ((do Memory.use r.blocks; Memory.use r.blocks; Pure.pure r) >>= _) _
    refine Owns.bind (Q1 := fun r' P => P = r.blocks ∧ r' = r) ?_ ?_
    · exact Owns.useR (R := 0) (by abel) (Owns.useR (R := 0) (by abel) (Owns.pure ⟨rfl, rfl⟩))
    rintro r' _ ⟨rfl, rfl⟩
    exact addEntries_owns L r' h
  | .append true :: L, r, h => by
    refine Owns.bind (Row.setNew_owns true r) ?_
    rintro r' _ rfl
    exact addEntries_nofound _ L r' h

theorem addRows_owns (es : Nat → List Entry) (h : ∀ i, EntriesSafe (es i)) :
    ∀ (i : Nat) (L : List Row), Owns E (total Row.blocks L) (addRows es i L) fun L' P =>
      P = total Row.blocks L' ∧ L'.length = L.length
  | _, [] => Owns.pure ⟨rfl, rfl⟩
  | i, r :: L => by
    refine Owns.useR (R := total Row.blocks L) rfl ?_
    refine Owns.call (addEntries_owns (es i) r (h i)) (R := total Row.blocks L) rfl ?_
    rintro r' _ rfl
    refine Owns.call (addRows_owns es h (i + 1) L) (R := r'.blocks) (by abel) ?_
    rintro L' _ ⟨rfl, e⟩
    exact Owns.pure ⟨by simp only [total]; abel, by simp [e]⟩

theorem CsrO.add_owns (threads : Nat) (es : Nat → List Entry) (A B : CsrO) (h : ∀ i, EntriesSafe (es i)) :
    Owns E (A.blocks + B.blocks) (A.add threads es B) fun A' P =>
      P = A'.blocks + B.blocks ∧ A'.self = A.self ∧ A'.rows.length = A.rows.length := by
  unfold CsrO.add
  refine Owns.useR (R := 0) (by abel) ?_
  refine Owns.call (Owns.times newTable_owns threads) (R := A.blocks + B.blocks) (by abel) ?_
  rintro T _ ⟨rfl, _⟩
  refine Owns.call (addRows_owns es h 0 A.rows)
    (R := total Table.blocks T + ({A.self} + {A.data} + B.blocks)) (by simp only [CsrO.blocks]; abel) ?_
  rintro rows _ ⟨rfl, e⟩
  refine Owns.call (Owns.each Table.deallocate_owns T)
    (R := total Row.blocks rows + ({A.self} + {A.data} + B.blocks)) (by abel) ?_
  rintro _ _ rfl
  exact Owns.pure ⟨by simp only [CsrO.blocks]; abel, rfl, e⟩

theorem CsrO.x2_owns (app : List (Nat × Bool)) (X X2 : CsrO) (h : ∀ x ∈ app, x.1 < X2.rows.length) :
    Owns E (X.blocks + X2.blocks) (X.x2 app X2) fun r P =>
      P = X.blocks + r.2.blocks + {r.1} ∧ r.2.rows.length = X2.rows.length := by
  unfold CsrO.x2
  refine Owns.malloc fun t => ?_
  refine Owns.useR (R := X2.blocks) (by abel) ?_
  refine Owns.call (appends_owns app X2.rows h) (R := X.blocks + {t} + {X2.self} + {X2.data})
    (by simp only [CsrO.blocks]; abel) ?_
  rintro rows _ ⟨rfl, e⟩
  refine Owns.useR (R := total Row.blocks rows + {X2.self} + {X2.data}) (by abel) ?_
  exact Owns.pure ⟨by simp only [CsrO.blocks]; abel, e⟩

theorem CsrO.multiply_rows_owns (square plain : Bool) (threads : Nat) (app : List (Nat × Bool))
    (es : Nat → List Entry) (A B C : CsrO) (hs : square = true → A = B)
    (ha : ∀ x ∈ app, x.1 < C.rows.length) (he : ∀ i, EntriesSafe (es i)) :
    Owns E (ops square A.blocks B.blocks + C.blocks) (A.multiply square plain threads app es B C)
      fun C' P => P = ops square A.blocks B.blocks + C'.blocks ∧ C'.rows.length = C.rows.length := by
  have hcov : ∃ R, ops square A.blocks B.blocks = A.blocks + R := by
    cases square
    · exact ⟨B.blocks, rfl⟩
    · exact ⟨0, by simp [ops]⟩
  have huni : A.blocks ∪ B.blocks ≤ ops square A.blocks B.blocks := by
    cases square
    · exact Multiset.union_le (Multiset.le_add_right _ _) (Multiset.le_add_left _ _)
    · rw [← hs rfl]; simp [ops]
  obtain ⟨R, hR⟩ := hcov
  unfold CsrO.multiply
  refine Owns.bind (Q1 := fun t P =>
    P = ops square A.blocks B.blocks + t.2.blocks + optBlk t.1 ∧ t.2.rows.length = C.rows.length) ?_ ?_
  · split
    · refine Owns.call (A.x2_owns app C ha) (R := R) (by rw [hR]; abel) ?_
      rintro ⟨t, C'⟩ _ ⟨rfl, hl⟩
      refine Owns.pure ⟨?_, hl⟩
      rw [hR]
      simp only [optBlk]
      abel
    · refine Owns.useR (R := ops square A.blocks B.blocks + {C.data} + total Row.blocks C.rows)
        (by simp only [CsrO.blocks]; abel) ?_
      refine Owns.call (newCsr_owns C.rows.length) (R := ops square A.blocks B.blocks + C.blocks)
        (by abel) ?_
      rintro A2 _ ⟨rfl, e2⟩
      refine Owns.bind (Q1 := fun t P =>
        P = ops square A.blocks B.blocks + C.blocks + t.2.blocks + optBlk t.1) ?_ ?_
      · split
        · refine Owns.call (A.x2_owns app A2 (by rw [e2]; exact ha)) (R := R + C.blocks)
            (by rw [hR]; abel) ?_
          rintro ⟨t, A2'⟩ _ ⟨rfl, _⟩
          refine Owns.pure ?_
          rw [hR]
          simp only [optBlk]
          abel
        · refine Owns.use ?_ ?_
          · refine le_trans huni ?_
            refine le_trans (Multiset.le_add_right _ C.blocks) (Multiset.le_add_left _ _)
          refine Owns.call (appends_owns app A2.rows (by rw [e2]; exact ha))
            (R := ops square A.blocks B.blocks + C.blocks + {A2.self} + {A2.data})
            (by simp only [CsrO.blocks]; abel) ?_
          rintro rows _ ⟨rfl, _⟩
          refine Owns.pure ?_
          simp only [CsrO.blocks, optBlk]
          abel
      · rintro ⟨t, A2'⟩ _ rfl
        refine Owns.call (C.add_owns threads es A2' he)
          (R := ops square A.blocks B.blocks + optBlk t) (by abel) ?_
        rintro C' _ ⟨rfl, _, hl⟩
        refine Owns.call A2'.deallocate_owns
          (R := ops square A.blocks B.blocks + C'.blocks + optBlk t) (by abel) ?_
        rintro _ _ rfl
        exact Owns.pure ⟨by abel, hl⟩
  · rintro ⟨t, C'⟩ _ ⟨rfl, hl⟩
    refine Owns.call (freeOpt_owns t) (R := ops square A.blocks B.blocks + C'.blocks) (by abel) ?_
    rintro _ _ rfl
    exact Owns.pure ⟨by abel, hl⟩

theorem CsrO.multiply_owns (square plain : Bool) (threads : Nat) (app : List (Nat × Bool))
    (es : Nat → List Entry) (A B C : CsrO) (hs : square = true → A = B)
    (ha : ∀ x ∈ app, x.1 < C.rows.length) (he : ∀ i, EntriesSafe (es i)) :
    Owns E (ops square A.blocks B.blocks + C.blocks) (A.multiply square plain threads app es B C)
      fun C' P => P = ops square A.blocks B.blocks + C'.blocks :=
  (A.multiply_rows_owns square plain threads app es B C hs ha he).mono fun _ _ h => h.1

theorem extract_go_owns (full : Nat → Bool) (A : CsrO) : ∀ (i : Nat) (rows : List Row),
    Owns E (A.blocks + total Row.blocks rows) (CsrO.extract.go full A i rows) fun rows' P =>
      ∃ L, P = A.blocks + total Row.blocks rows' + L ∧ L.card = 2 * rows.length ∧
        rows'.length = rows.length
  | _, [] => Owns.pure ⟨0, by abel, rfl, rfl⟩
  | i, r :: rows => by
    show Owns E _ (Memory.malloc >>= _) _
    refine Owns.malloc fun c => Owns.malloc fun v => ?_
    refine Owns.useR (R := total Row.blocks (r :: rows)) (by abel) ?_
    refine Owns.call (Row.setNew_owns (full i) r)
      (R := {c} + {v} + (A.blocks + total Row.blocks rows)) (by simp only [total]; abel) ?_
    rintro r' _ rfl
    refine Owns.call (extract_go_owns full A (i + 1) rows) (R := {c} + {v} + r'.blocks) (by abel) ?_
    rintro rows' _ ⟨L, rfl, hc, hl⟩
    refine Owns.pure ⟨L + {c} + {v}, by simp only [total]; abel, ?_, by simp [hl]⟩
    simp only [Multiset.card_add, Multiset.card_singleton, hc, List.length_cons]
    omega

/-- Two blocks a row are lost. -/
theorem CsrO.extract_owns (n : Nat) (full : Nat → Bool) (A : CsrO) :
    Owns E A.blocks (A.extract n full) fun B P =>
      ∃ L, P = A.blocks + B.blocks + L ∧ L.card = 2 * n ∧ B.rows.length = n := by
  unfold CsrO.extract
  refine Owns.useR (R := 0) (by abel) ?_
  refine Owns.call (newCsr_owns n) (R := A.blocks) (by abel) ?_
  rintro B _ ⟨rfl, e⟩
  refine Owns.call (extract_go_owns full A 0 B.rows) (R := {B.self} + {B.data})
    (by simp only [CsrO.blocks]; abel) ?_
  rintro rows _ ⟨L, rfl, hc, hl⟩
  exact Owns.pure ⟨L, by simp only [CsrO.blocks]; abel, by rw [hc, e], by rw [← e, ← hl]⟩

theorem CsrO.inverse_owns (app : List (Nat × Bool)) (A : CsrO) (h : ∀ x ∈ app, x.1 < A.rows.length) :
    Owns E A.blocks (A.inverse app) fun B P => P = A.blocks + B.blocks := by
  unfold CsrO.inverse
  refine Owns.bind A.array_owns ?_
  rintro a _ rfl
  refine Owns.call (newDense_owns A.rows.length) (R := A.blocks + {a}) (by abel) ?_
  rintro D _ ⟨rfl, _⟩
  refine Owns.useR (R := A.blocks) (by abel) ?_
  refine Owns.free (P' := D.blocks + A.blocks) (by abel) ?_
  refine Owns.call D.inverseInplace_owns (R := A.blocks) (by abel) ?_
  rintro _ _ rfl
  refine Owns.call D.array_owns (R := A.blocks) (by abel) ?_
  rintro b _ rfl
  refine Owns.call D.deallocate_owns (R := A.blocks + {b}) (by abel) ?_
  rintro _ _ rfl
  refine Owns.call (importCsr_owns A.rows.length b app h) (R := A.blocks) (by abel) ?_
  rintro B _ ⟨rfl, _⟩
  refine Owns.free (P' := B.blocks + A.blocks) (by abel) ?_
  exact Owns.pure (by abel)

/-- Error allowed where the result does not fit. -/
theorem CsrO.diagonalize_owns (cplx dc fits : Bool) (app : List (Nat × Bool)) (A V : CsrO)
    (h : ∀ x ∈ app, x.1 < A.rows.length) :
    Owns (fits = false) (A.blocks + V.blocks) (A.diagonalize cplx dc fits app V) fun _ P =>
      P = A.blocks + V.blocks := by
  unfold CsrO.diagonalize
  refine Owns.call A.array_owns (R := V.blocks) (by abel) ?_
  rintro a _ rfl
  refine Owns.call (newDense_owns A.rows.length) (R := A.blocks + V.blocks + {a}) (by abel) ?_
  rintro D _ ⟨rfl, _⟩
  refine Owns.useR (R := A.blocks + V.blocks) (by abel) ?_
  refine Owns.free (P' := D.blocks + A.blocks + V.blocks) (by abel) ?_
  refine Owns.call (newDense_owns A.rows.length) (R := D.blocks + A.blocks + V.blocks) (by abel) ?_
  rintro W _ ⟨rfl, _⟩
  refine Owns.call (D.diagonalize_owns cplx dc W) (R := A.blocks + V.blocks) (by abel) ?_
  rintro _ _ rfl
  refine Owns.call D.deallocate_owns (R := W.blocks + A.blocks + V.blocks) (by abel) ?_
  rintro _ _ rfl
  refine Owns.call W.array_owns (R := A.blocks + V.blocks) (by abel) ?_
  rintro w _ rfl
  refine Owns.call W.deallocate_owns (R := A.blocks + V.blocks + {w}) (by abel) ?_
  rintro _ _ rfl
  refine Owns.call (importCsr_owns A.rows.length w app h) (R := A.blocks + V.blocks) (by abel) ?_
  rintro T _ ⟨rfl, _⟩
  refine Owns.free (P' := T.blocks + A.blocks + V.blocks) (by abel) ?_
  cases fits
  · intro F
    exact rfl
  · refine Owns.useR (R := A.blocks) (by abel) ?_
    refine Owns.frame T.deallocate_owns (R := A.blocks + V.blocks) (by abel) ?_
    rintro _ _ rfl
    abel

theorem convert_go_owns {S : Multiset Blk} {getRow : M Blk} {full : Nat → Bool}
    (hg : Owns E S getRow fun p P => P = S + {p}) : ∀ (n i : Nat) (B : CsrO), i + n ≤ B.rows.length →
      Owns E (S + B.blocks) (convertCsr.go getRow full i n B) fun B' P =>
        P = S + B'.blocks ∧ B'.rows.length = B.rows.length
  | 0, _, B, _ => Owns.pure ⟨rfl, rfl⟩
  | n + 1, i, B, h => by
    show Owns E _ (getRow >>= _) _
    refine Owns.call hg (R := B.blocks) rfl ?_
    rintro p _ rfl
    refine Owns.call (B.setRow_owns (full i) i (by omega)) (R := S + {p}) (by abel) ?_
    rintro B' _ ⟨rfl, e⟩
    refine Owns.free (P' := S + B'.blocks) (by abel) ?_
    refine Owns.mono (convert_go_owns hg n (i + 1) B' (by omega)) ?_
    rintro B'' P ⟨rfl, e'⟩
    exact ⟨rfl, by rw [e', e]⟩

theorem convertCsr_owns (N : Nat) {S : Multiset Blk} {getRow : M Blk} {full : Nat → Bool}
    (hg : Owns E S getRow fun p P => P = S + {p}) :
    Owns E S (convertCsr N getRow full) fun B P => P = S + B.blocks := by
  unfold convertCsr
  refine Owns.call (newCsr_owns N) (R := S) (by abel) ?_
  rintro B _ ⟨rfl, e⟩
  refine Owns.congr (add_comm _ _) ?_
  exact Owns.mono (convert_go_owns hg N 0 B (by omega)) fun B' P h => h.1

end Memory
end Bml
