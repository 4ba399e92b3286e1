import Verif.Basic
import Mathlib.Algebra.Order.Group.Multiset
import Mathlib.Tactic.Abel

/-!
# Allocated memory

A call is modelled by what it does with `malloc` and `free`: the state is the multiset of blocks that
are allocated (a communicator of MPI counts as a block).  Freeing or using a block that is not
allocated is undefined behaviour.  `malloc` gives any block that is not in use: the theorems hold for
every `Allocator`.  Simplification: memory does not run out.
-/

namespace Bml
namespace Memory

/-- The address of a block. -/
abbrev Blk := Nat

/-- What `malloc` may do: it gives a block that is not allocated. -/
class Allocator where
  pick : Multiset Blk → Blk
  fresh : ∀ H, pick H ∉ H

/-- A piece of a program, from the blocks allocated before to a result and the blocks allocated
afterwards. -/
def M (α : Type) : Type := Multiset Blk → Res (α × Multiset Blk)

instance : Monad M where
  pure a := fun H => .ok (a, H)
  bind c f := fun H => (c H).bind fun r => f r.1 r.2

variable [Allocator]

/-- `bml_allocate_memory`, `bml_noinit_allocate_memory` (`bml_allocate.c` 43-100), `malloc`, `calloc`. -/
def malloc : M Blk := fun H => .ok (Allocator.pick H, {Allocator.pick H} + H)

/-- `bml_free_memory` (`bml_allocate.c` 128-137), `free`. -/
def free (p : Blk) : M Unit := fun H => if p ∈ H then .ok ((), H.erase p) else .ub

/-- `bml_reallocate_memory` (`bml_allocate.c` 109-120): the block may move or stay. -/
def realloc (p : Blk) : M Blk := do
  free p
  malloc

/-- Reading or writing blocks. -/
def use (X : Multiset Blk) : M Unit := fun H => if X ≤ H then .ok ((), H) else .ub

/-- `LOG_ERROR`: the program ends. -/
def stop {α : Type} : M α := fun _ => .error

/-- A NULL or dangling pointer is followed. -/
def crash {α : Type} : M α := fun _ => .ub

/-- `free` where the pointer may be `NULL`. -/
def freeOpt : Option Blk → M Unit
  | none => pure ()
  | some p => free p

/-- Several blocks are freed. -/
def freeAll : List Blk → M Unit
  | [] => pure ()
  | p :: L => do
    free p
    freeAll L

/-- A loop of `n` calls with the results kept. -/
def times {α : Type} (c : M α) : Nat → M (List α)
  | 0 => pure []
  | n + 1 => do
    let a ← c
    let L ← times c n
    pure (a :: L)

/-- A loop over a list. -/
def each {α : Type} (f : α → M Unit) : List α → M Unit
  | [] => pure ()
  | a :: L => do
    f a
    each f L

/-- The sum of the blocks of several objects. -/
def total {α : Type} (f : α → Multiset Blk) : List α → Multiset Blk
  | [] => 0
  | a :: L => f a + total f L

/-- `c` called with the blocks `P` (and others) allocated ends with blocks `P'` in their place, for
which `Q` holds; `E` tells whether it may end the program with an error. -/
def Owns {α : Type} (E : Prop) (P : Multiset Blk) (c : M α) (Q : α → Multiset Blk → Prop) : Prop :=
  ∀ F, (c (P + F)).wp E fun r => ∃ P', Q r.1 P' ∧ r.2 = P' + F

variable {E : Prop} {α β : Type}

omit [Allocator] in
theorem Owns.pure {P : Multiset Blk} {a : α} {Q : α → Multiset Blk → Prop} (h : Q a P) :
    Owns E P (pure a) Q := fun _ => ⟨P, h, rfl⟩

omit [Allocator] in
theorem Owns.bind {P : Multiset Blk} {c : M α} {f : α → M β} {Q1 : α → Multiset Blk → Prop}
    {Q : β → Multiset Blk → Prop} (h : Owns E P c Q1) (hf : ∀ a P', Q1 a P' → Owns E P' (f a) Q) :
    Owns E P (c >>= f) Q := by
  intro F
  refine (Res.wp_bind (c (P + F)) (fun r => f r.1 r.2) _).2 (Res.wp_mono (h F) ?_)
  rintro ⟨a, H⟩ ⟨P', h1, h2⟩
  rw [h2]
  exact hf a P' h1 F

omit [Allocator] in
theorem Owns.mono {P : Multiset Blk} {c : M α} {Q1 Q : α → Multiset Blk → Prop} (h : Owns E P c Q1)
    (hq : ∀ a P', Q1 a P' → Q a P') : Owns E P c Q := by
  intro F
  refine Res.wp_mono (h F) ?_
  rintro ⟨a, H⟩ ⟨P', h1, h2⟩
  exact ⟨P', hq _ _ h1, h2⟩

omit [Allocator] in
/-- The rest of what a caller owns is not touched. -/
theorem Owns.call {P P1 R : Multiset Blk} {c : M α} {f : α → M β} {Q1 : α → Multiset Blk → Prop}
    {Q : β → Multiset Blk → Prop} (h : Owns E P1 c Q1) (e : P = P1 + R)
    (hf : ∀ a P', Q1 a P' → Owns E (P' + R) (f a) Q) : Owns E P (c >>= f) Q := by
  intro F
  subst e
  rw [add_assoc]
  refine (Res.wp_bind (c (P1 + (R + F))) (fun r => f r.1 r.2) _).2 (Res.wp_mono (h (R + F)) ?_)
  rintro ⟨a, H⟩ ⟨P', h1, h2⟩
  rw [h2, ← add_assoc]
  exact hf a P' h1 F

omit [Allocator] in
theorem Owns.frame {P P1 R : Multiset Blk} {c : M α} {Q1 : α → Multiset Blk → Prop}
    {Q : α → Multiset Blk → Prop} (h : Owns E P1 c Q1) (e : P = P1 + R)
    (hf : ∀ a P', Q1 a P' → Q a (P' + R)) : Owns E P c Q := by
  intro F
  subst e
  rw [add_assoc]
  refine Res.wp_mono (h (R + F)) ?_
  rintro ⟨a, H⟩ ⟨P', h1, h2⟩
  exact ⟨P' + R, hf _ _ h1, by rw [h2, add_assoc]⟩

theorem Owns.malloc {P : Multiset Blk} {f : Blk → M α} {Q : α → Multiset Blk → Prop}
    (h : ∀ p, Owns E ({p} + P) (f p) Q) : Owns E P (malloc >>= f) Q := by
  intro F
  have := h (Allocator.pick (P + F)) F
  rw [add_assoc] at this
  exact this

theorem Owns.malloc_last {P : Multiset Blk} {Q : Blk → Multiset Blk → Prop}
    (h : ∀ p, Q p ({p} + P)) : Owns E P Memory.malloc Q := by
  intro F
  exact ⟨{Allocator.pick (P + F)} + P, h _, by rw [add_assoc]⟩

omit [Allocator] in
theorem free_ok {p : Blk} {H : Multiset Blk} : free p ({p} + H) = .ok ((), H) := by
  show (if p ∈ {p} + H then _ else _) = _
  rw [if_pos (by simp)]
  simp

omit [Allocator] in
theorem Owns.free {P P' : Multiset Blk} {p : Blk} {f : Unit → M α} {Q : α → Multiset Blk → Prop}
    (e : P = {p} + P') (h : Owns E P' (f ()) Q) : Owns E P (free p >>= f) Q := by
  intro F
  show Res.wp (Res.bind (Memory.free p (P + F)) _) _ _
  rw [e, add_assoc, free_ok]
  exact h F

omit [Allocator] in
theorem Owns.free_last {P P' : Multiset Blk} {p : Blk} {Q : Unit → Multiset Blk → Prop}
    (e : P = {p} + P') (h : Q () P') : Owns E P (Memory.free p) Q := by
  intro F
  rw [e, add_assoc, free_ok]
  exact ⟨P', h, rfl⟩

omit [Allocator] in
theorem Owns.use {P : Multiset Blk} {X : Multiset Blk} {f : Unit → M α} {Q : α → Multiset Blk → Prop}
    (e : X ≤ P) (h : Owns E P (f ()) Q) : Owns E P (use X >>= f) Q := by
  intro F
  show Res.wp (Res.bind (if X ≤ P + F then _ else _) _) _ _
  rw [if_pos (le_trans e (Multiset.le_add_right _ _))]
  exact h F

omit [Allocator] in
theorem Owns.use_last {P : Multiset Blk} {X : Multiset Blk} {Q : Unit → Multiset Blk → Prop}
    (e : X ≤ P) (h : Q () P) : Owns E P (Memory.use X) Q := by
  intro F
  show Res.wp (if X ≤ P + F then _ else _) _ _
  rw [if_pos (le_trans e (Multiset.le_add_right _ _))]
  exact ⟨P, h, rfl⟩

omit [Allocator] in
theorem Owns.freeAll {L : List Blk} {P' : Multiset Blk} {f : Unit → M α} {Q : α → Multiset Blk → Prop} :
    ∀ {P : Multiset Blk}, P = total (fun p => {p}) L + P' → Owns E P' (f ()) Q →
      Owns E P (Memory.freeAll L >>= f) Q := by
  induction L with
  | nil =>
    intro P e h
    rw [show P = P' by rw [e]; simp [total]]
    exact h
  | cons p L ih =>
    intro P e h F
    have h1 := ih (P := total (fun p => {p}) L + P') rfl h F
    show Res.wp (Res.bind (Res.bind (Memory.free p (P + F)) _) _) _ _
    rw [e, show total (fun p => ({p} : Multiset Blk)) (p :: L) = {p} + total (fun p => {p}) L from rfl,
      add_assoc, add_assoc, free_ok, ← add_assoc]
    exact h1

omit [Allocator] in
theorem Owns.freeAll_last {L : List Blk} {P P' : Multiset Blk} {Q : Unit → Multiset Blk → Prop}
    (e : P = total (fun p => {p}) L + P') (h : Q () P') : Owns E P (Memory.freeAll L) Q := by
  have h1 : Owns E P (Memory.freeAll L >>= fun _ => (Pure.pure () : M Unit)) Q :=
    Owns.freeAll e (Owns.pure h)
  intro F
  have := h1 F
  revert this
  show Res.wp (Res.bind (Memory.freeAll L (P + F)) _) _ _ → _
  cases Memory.freeAll L (P + F) <;> exact id

omit [Allocator] in
/-- A loop of calls each of which makes an object. -/
theorem Owns.times {c : M α} {own : α → Multiset Blk} (h : Owns E 0 c fun a P => P = own a) :
    ∀ n, Owns E 0 (times c n) fun L P => P = total own L ∧ L.length = n
  | 0 => Owns.pure ⟨rfl, rfl⟩
  | n + 1 => by
    refine Owns.bind h ?_
    rintro a P rfl
    refine Owns.call (Owns.times h n) (R := own a) (by simp) ?_
    rintro L P ⟨rfl, e⟩
    exact Owns.pure ⟨add_comm _ _, by simp [e]⟩

omit [Allocator] in
/-- A loop that takes objects apart. -/
theorem Owns.each {f : α → M Unit} {own : α → Multiset Blk} (h : ∀ a, Owns E (own a) (f a) fun _ P => P = 0) :
    ∀ L : List α, Owns E (total own L) (each f L) fun _ P => P = 0
  | [] => Owns.pure rfl
  | a :: L => by
    refine Owns.call (h a) (R := total own L) rfl ?_
    rintro _ P rfl
    rw [zero_add]
    exact Owns.each h L

end Memory
end Bml
