import Verif.Basic
import Mathlib.Logic.Function.Basic

/-!
# Parallel loops at the level of single memory accesses

The other files run the iterations of an OpenMP loop one after the other, in any order.  Here the
threads of a team take turns after every single load and store.  A loop body is a program that reads
and writes locations of the shared memory; what is private to a thread is passed from one iteration
of the thread to its next.

The rule that makes the two views agree (`Team.reduction`) is proved here for all loops whose iterations
have their own locations.
-/

namespace Bml
namespace Race

variable {Loc : Type} {ty : Loc → Type} {α β σ ι : Type}

/-- The shared memory: a value for every location. -/
abbrev Mem (ty : Loc → Type) := (l : Loc) → ty l

/-- What a thread does: loads and stores in the shared memory, `omp_set_lock` and `omp_unset_lock`.
`fail` is `LOG_ERROR`, `ub` undefined behaviour in the private part of the computation. -/
inductive Prog (ty : Loc → Type) (α : Type) : Type
  | ret (a : α)
  | rd (l : Loc) (k : ty l → Prog ty α)
  | wr (l : Loc) (v : ty l) (k : Prog ty α)
  | acq (l : Loc) (k : Prog ty α)
  | rel (l : Loc) (k : Prog ty α)
  | fail
  | ub

namespace Prog

/-- One program after another. -/
def bind : Prog ty α → (α → Prog ty β) → Prog ty β
  | ret a, f => f a
  | rd l k, f => rd l fun v => (k v).bind f
  | wr l v k, f => wr l v (k.bind f)
  | acq l k, f => acq l (k.bind f)
  | rel l k, f => rel l (k.bind f)
  | fail, _ => fail
  | ub, _ => ub

instance : Monad (Prog ty) where
  pure := ret
  bind := bind

/-- A load. -/
def load (l : Loc) : Prog ty (ty l) := rd l ret

/-- A store. -/
def store (l : Loc) (v : ty l) : Prog ty Unit := wr l v (ret ())

/-- A computation in private memory. -/
def lift : Res α → Prog ty α
  | .ok a => ret a
  | .error => fail
  | .ub => ub

/-- `for (int k = 0; k < n; k++)`. -/
def loop (n : Nat) (s : σ) (f : Nat → σ → Prog ty σ) : Prog ty σ :=
  match n with
  | 0 => ret s
  | n + 1 => (loop n s f).bind (f n)

/-- The iterations `l`, one after the other. -/
def forL (l : List ι) (s : σ) (f : ι → σ → Prog ty σ) : Prog ty σ :=
  match l with
  | [] => ret s
  | i :: l => (f i s).bind fun s => forL l s f

/-- The next access to data: a store or not, and the location. -/
def next : Prog ty α → Option (Bool × Loc)
  | rd l _ => some (false, l)
  | wr l _ _ => some (true, l)
  | _ => none

/-- The location of the next step, data or lock. -/
def uses : Prog ty α → Option Loc
  | rd l _ => some l
  | wr l _ _ => some l
  | acq l _ => some l
  | rel l _ => some l
  | _ => none

/-- Finished. -/
def done : Prog ty α → Prop
  | ret _ => True
  | _ => False

/-- Ended by an error or undefined behaviour. -/
def broken : Prog ty α → Prop
  | fail => True
  | ub => True
  | _ => False

end Prog

variable [DecidableEq Loc]

/-- A program without locks run without interruption.  `inb` says which locations exist. -/
def Prog.run (inb : Loc → Bool) : Prog ty α → Mem ty → Res (α × Mem ty)
  | .ret a, m => .ok (a, m)
  | .rd l k, m => if inb l then (k (m l)).run inb m else .ub
  | .wr l v k, m => if inb l then k.run inb (Function.update m l v) else .ub
  | .fail, _ => .error
  | _, _ => .ub

/-- A team of threads: the shared memory, the locks that are set, and what each thread has still to
do. -/
structure Team (ty : Loc → Type) (σ : Type) where
  mem : Mem ty
  held : Loc → Bool
  prog : Nat → Prog ty σ

namespace Team

/-- Thread `t` makes one step.  A thread that has ended, or waits for a lock, stays as it is. -/
def step (s : Team ty σ) (t : Nat) : Team ty σ :=
  match s.prog t with
  | .rd l k => { s with prog := upd s.prog t (k (s.mem l)) }
  | .wr l v k => { s with mem := Function.update s.mem l v, prog := upd s.prog t k }
  | .acq l k =>
    if s.held l then s else { s with held := Function.update s.held l true, prog := upd s.prog t k }
  | .rel l k => { s with held := Function.update s.held l false, prog := upd s.prog t k }
  | _ => s

/-- Thread `t` can make a step. -/
def can (s : Team ty σ) (t : Nat) : Bool :=
  match s.prog t with
  | .rd _ _ => true
  | .wr _ _ _ => true
  | .acq l _ => !s.held l
  | .rel _ _ => true
  | _ => false

/-- The threads make steps in the order `cs`. -/
def exec (s : Team ty σ) : List Nat → Team ty σ
  | [] => s
  | t :: cs => (s.step t).exec cs

/-- The number of steps made. -/
def moves (s : Team ty σ) : List Nat → Nat
  | [] => 0
  | t :: cs => (if s.can t then 1 else 0) + (s.step t).moves cs

/-- A data race: two threads are about to access the same location, and one of them to change it. -/
def Racing (s : Team ty σ) : Prop :=
  ∃ t t' w w' l, t ≠ t' ∧ (s.prog t).next = some (w, l) ∧ (s.prog t').next = some (w', l) ∧
    (w = true ∨ w' = true)

/-- A thread is about to use a location or lock that does not exist, or has stopped. -/
def Broken (inb : Loc → Bool) (s : Team ty σ) : Prop :=
  ∃ t, (s.prog t).broken ∨ ∃ l, (s.prog t).uses = some l ∧ inb l = false

/-- All threads have finished. -/
def Finished (s : Team ty σ) : Prop := ∀ t, (s.prog t).done

/-- However the threads take turns, there is never a data race, an access to a location that does not
exist or an error; the number of steps is bounded; the threads do not wait for each other for ever; and
when all have finished the memory satisfies `P`. -/
structure Safe (inb : Loc → Bool) (s : Team ty σ) (P : Mem ty → Prop) : Prop where
  race : ∀ cs, ¬ (s.exec cs).Racing
  sound : ∀ cs, ¬ (s.exec cs).Broken inb
  ends : ∃ n, ∀ cs, s.moves cs ≤ n
  live : ∀ cs, (∀ t, (s.exec cs).can t = false) → (s.exec cs).Finished
  result : ∀ cs, (s.exec cs).Finished → P (s.exec cs).mem

theorem Safe.mono {inb : Loc → Bool} {s : Team ty σ} {P Q : Mem ty → Prop} (h : s.Safe inb P)
    (hPQ : ∀ m, P m → Q m) : s.Safe inb Q :=
  ⟨h.race, h.sound, h.ends, h.live, fun cs hc => hPQ _ (h.result cs hc)⟩

/-- The team at the beginning of a parallel loop: `sc` lists the iterations with their threads, each
thread has its own copy of the private variables `s0`. -/
def start (m : Mem ty) (s0 : σ) (sc : Sched) (body : Nat → σ → Prog ty σ) : Team ty σ :=
  ⟨m, fun _ => false, fun t => Prog.forL ((sc.filter fun ti => ti.1 = t).map fun ti => ti.2) s0 body⟩

end Team

/-! ## Footprints -/

/-- Run alone from memory `m`, the program stores only in `own` and loads only from `own` and `ro`, ends
normally, and its result and the memory then satisfy `Q`. -/
def Prog.wp (own ro : Loc → Prop) : Prog ty α → Mem ty → (α → Mem ty → Prop) → Prop
  | .ret a, m, Q => Q a m
  | .rd l k, m, Q => (own l ∨ ro l) ∧ (k (m l)).wp own ro m Q
  | .wr l v k, m, Q => own l ∧ k.wp own ro (Function.update m l v) Q
  | _, _, _ => False

namespace Prog

variable {own ro : Loc → Prop} {m : Mem ty} {Q : α → Mem ty → Prop}

theorem wp_mono {p : Prog ty α} {Q' : α → Mem ty → Prop} (h : p.wp own ro m Q)
    (hQ : ∀ a m, Q a m → Q' a m) : p.wp own ro m Q' := by
  induction p generalizing m with
  | ret a => exact hQ _ _ h
  | rd l k ih => exact ⟨h.1, ih _ h.2⟩
  | wr l v k ih => exact ⟨h.1, ih h.2⟩
  | acq l k => exact h
  | rel l k => exact h
  | fail => exact h
  | ub => exact h

theorem wp_own {p : Prog ty α} {own' ro' : Loc → Prop} (h : p.wp own ro m Q)
    (ho : ∀ l, own l → own' l) (hr : ∀ l, ro l → own' l ∨ ro' l) : p.wp own' ro' m Q := by
  induction p generalizing m with
  | ret a => exact h
  | rd l k ih => exact ⟨h.1.elim (fun g => .inl (ho l g)) (hr l), ih _ h.2⟩
  | wr l v k ih => exact ⟨ho l h.1, ih h.2⟩
  | acq l k => exact h
  | rel l k => exact h
  | fail => exact h
  | ub => exact h

theorem wp_bind {p : Prog ty α} {f : α → Prog ty β} {Q : β → Mem ty → Prop} :
    (p.bind f).wp own ro m Q ↔ p.wp own ro m fun a m => (f a).wp own ro m Q := by
  induction p generalizing m with
  | ret a => rfl
  | rd l k ih =>
    show (_ ∧ _) ↔ (_ ∧ _)
    rw [ih]
  | wr l v k ih =>
    show (_ ∧ _) ↔ (_ ∧ _)
    rw [ih]
  | acq l k => rfl
  | rel l k => rfl
  | fail => rfl
  | ub => rfl

theorem wp_frame {p : Prog ty α} (h : p.wp own ro m Q) :
    p.wp own ro m fun a m' => Q a m' ∧ ∀ l, ¬ own l → m' l = m l := by
  induction p generalizing m with
  | ret a => exact ⟨h, fun _ _ => rfl⟩
  | rd l k ih => exact ⟨h.1, ih _ h.2⟩
  | wr l v k ih =>
    refine ⟨h.1, wp_mono (ih h.2) ?_⟩
    rintro a m' ⟨h1, h2⟩
    refine ⟨h1, fun l' hl => ?_⟩
    rw [h2 l' hl, Function.update_of_ne]
    rintro rfl
    exact hl h.1
  | acq l k => exact h
  | rel l k => exact h
  | fail => exact h
  | ub => exact h

/-- What happens elsewhere does not matter. -/
theorem wp_congr {p : Prog ty α} {m' : Mem ty} (h : p.wp own ro m Q)
    (hm : ∀ l, own l ∨ ro l → m l = m' l)
    (hQ : ∀ a n n', (∀ l, own l ∨ ro l → n l = n' l) → Q a n → Q a n') : p.wp own ro m' Q := by
  induction p generalizing m m' with
  | ret a => exact hQ a m m' hm h
  | rd l k ih => exact ⟨h.1, by rw [← hm l h.1]; exact ih _ h.2 hm⟩
  | wr l v k ih =>
    refine ⟨h.1, ih h.2 fun l' hl => ?_⟩
    by_cases e : l' = l
    · subst e
      rw [Function.update_self, Function.update_self]
    · rw [Function.update_of_ne e, Function.update_of_ne e]
      exact hm l' hl
  | acq l k => exact h
  | rel l k => exact h
  | fail => exact h
  | ub => exact h

theorem wp_lift {r : Res α} : (lift r : Prog ty α).wp own ro m Q ↔ r.wp False fun a => Q a m := by
  cases r <;> rfl

theorem wp_loop {n : Nat} {s : σ} {f : Nat → σ → Prog ty σ} (I : Nat → σ → Mem ty → Prop)
    (h0 : I 0 s m)
    (hs : ∀ k, k < n → ∀ s m, I k s m → (f k s).wp own ro m (I (k + 1))) :
    (loop n s f).wp own ro m (I n) := by
  induction n with
  | zero => exact h0
  | succ n ih =>
    show ((loop n s f).bind (f n)).wp _ _ _ _
    rw [wp_bind]
    exact wp_mono (ih fun k hk => hs k (by omega)) (hs n (by omega))

theorem wp_run {inb : Loc → Bool} {p : Prog ty α} (h : p.wp own ro m Q)
    (hi : ∀ l, own l ∨ ro l → inb l = true) : ∃ a m', p.run inb m = .ok (a, m') ∧ Q a m' := by
  induction p generalizing m with
  | ret a => exact ⟨a, m, rfl, h⟩
  | rd l k ih =>
    obtain ⟨a, m', e, h'⟩ := ih _ h.2
    refine ⟨a, m', ?_, h'⟩
    show (if inb l then _ else _) = _
    rw [if_pos (hi l h.1), e]
  | wr l v k ih =>
    obtain ⟨a, m', e, h'⟩ := ih h.2
    refine ⟨a, m', ?_, h'⟩
    show (if inb l then _ else _) = _
    rw [if_pos (hi l (.inl h.1)), e]
  | acq l k => exact absurd h id
  | rel l k => exact absurd h id
  | fail => exact absurd h id
  | ub => exact absurd h id

theorem wp_of_run {inb : Loc → Bool} {p : Prog ty α} {a : α} {m' : Mem ty} (h : p.wp own ro m Q)
    (e : p.run inb m = .ok (a, m')) : p.wp own ro m fun _ n => ∀ l, own l → n l = m' l := by
  induction p generalizing m with
  | ret b =>
    cases e
    exact fun _ _ => rfl
  | rd l k ih =>
    refine ⟨h.1, ih _ h.2 ?_⟩
    change (if inb l then _ else _) = _ at e
    by_cases c : inb l = true
    · rwa [if_pos c] at e
    · rw [if_neg c] at e
      cases e
  | wr l v k ih =>
    refine ⟨h.1, ih h.2 ?_⟩
    change (if inb l then _ else _) = _ at e
    by_cases c : inb l = true
    · rwa [if_pos c] at e
    · rw [if_neg c] at e
      cases e
  | acq l k => exact h
  | rel l k => exact h
  | fail => exact h
  | ub => exact h

theorem run_bind {inb : Loc → Bool} (p : Prog ty α) (f : α → Prog ty β) (m : Mem ty) :
    (p.bind f).run inb m = (p.run inb m).bind fun r => (f r.1).run inb r.2 := by
  induction p generalizing m with
  | ret a => rfl
  | rd l k ih =>
    show (if inb l then _ else _) = Res.bind (if inb l then _ else _) _
    by_cases h : inb l = true
    · rw [if_pos h, if_pos h, ih]
    · rw [if_neg h, if_neg h]
      rfl
  | wr l v k ih =>
    show (if inb l then _ else _) = Res.bind (if inb l then _ else _) _
    by_cases h : inb l = true
    · rw [if_pos h, if_pos h, ih]
    · rw [if_neg h, if_neg h]
      rfl
  | acq l k => rfl
  | rel l k => rfl
  | fail => rfl
  | ub => rfl

/-- The number of accesses of a program run alone. -/
def length : Prog ty α → Mem ty → Nat
  | .rd l k, m => (k (m l)).length m + 1
  | .wr l v k, m => k.length (Function.update m l v) + 1
  | _, _ => 0

theorem length_congr {p : Prog ty α} {m' : Mem ty} (h : p.wp own ro m Q)
    (hm : ∀ l, own l ∨ ro l → m l = m' l) : p.length m = p.length m' := by
  induction p generalizing m m' with
  | ret a => rfl
  | rd l k ih =>
    show (k (m l)).length m + 1 = (k (m' l)).length m' + 1
    rw [← hm l h.1, ih _ h.2 hm]
  | wr l v k ih =>
    show k.length _ + 1 = k.length _ + 1
    rw [ih h.2 fun l' hl => ?_]
    by_cases e : l' = l
    · subst e
      rw [Function.update_self, Function.update_self]
    · rw [Function.update_of_ne e, Function.update_of_ne e]
      exact hm l' hl
  | acq l k => rfl
  | rel l k => rfl
  | fail => rfl
  | ub => rfl

end Prog

/-! ## Teams whose threads have their own locations -/

namespace Team

variable {own : Nat → Loc → Prop} {ro : Loc → Prop} {Q : Nat → σ → Mem ty → Prop}

/-- Every thread can finish alone, within its footprint. -/
def Apart (own : Nat → Loc → Prop) (ro : Loc → Prop) (Q : Nat → σ → Mem ty → Prop) (s : Team ty σ) : Prop :=
  ∀ t, (s.prog t).wp (own t) ro s.mem (Q t)

theorem apart_step {s : Team ty σ} (hd : ∀ t t' l, t ≠ t' → own t l → ¬ own t' l)
    (hr : ∀ t l, ro l → ¬ own t l)
    (hQ : ∀ t a n n', (∀ l, own t l ∨ ro l → n l = n' l) → Q t a n → Q t a n')
    (h : s.Apart own ro Q) (t : Nat) : (s.step t).Apart own ro Q ∧
      ∀ l, (∀ t, ¬ own t l) → (s.step t).mem l = s.mem l := by
  unfold step
  have ht := h t
  cases e : s.prog t with
  | rd l k =>
    rw [e] at ht
    refine ⟨fun t' => ?_, fun _ _ => rfl⟩
    by_cases c : t' = t
    · subst c
      simp only [upd_same]
      exact ht.2
    · simp only [upd_ne _ _ c]
      exact h t'
  | wr l v k =>
    rw [e] at ht
    refine ⟨fun t' => ?_, fun l' hl => ?_⟩
    · by_cases c : t' = t
      · subst c
        simp only [upd_same]
        exact ht.2
      · simp only [upd_ne _ _ c]
        refine Prog.wp_congr (h t') (fun l' hl => ?_) (hQ t')
        rw [Function.update_of_ne]
        rintro rfl
        exact hl.elim (fun g => hd t t' _ (Ne.symm c) ht.1 g) fun g => hr t _ g ht.1
    · show Function.update s.mem l v l' = _
      rw [Function.update_of_ne]
      rintro rfl
      exact hl t ht.1
  | acq l k => rw [e] at ht; exact ht.elim
  | rel l k => rw [e] at ht; exact ht.elim
  | ret a => exact ⟨h, fun _ _ => rfl⟩
  | fail => exact ⟨h, fun _ _ => rfl⟩
  | ub => exact ⟨h, fun _ _ => rfl⟩

theorem apart_exec {s : Team ty σ} (hd : ∀ t t' l, t ≠ t' → own t l → ¬ own t' l)
    (hr : ∀ t l, ro l → ¬ own t l)
    (hQ : ∀ t a n n', (∀ l, own t l ∨ ro l → n l = n' l) → Q t a n → Q t a n')
    (h : s.Apart own ro Q) (cs : List Nat) : (s.exec cs).Apart own ro Q ∧
      ∀ l, (∀ t, ¬ own t l) → (s.exec cs).mem l = s.mem l := by
  induction cs generalizing s with
  | nil => exact ⟨h, fun _ _ => rfl⟩
  | cons t cs ih =>
    obtain ⟨h1, h2⟩ := apart_step hd hr hQ h t
    obtain ⟨h3, h4⟩ := ih h1
    exact ⟨h3, fun l hl => (h4 l hl).trans (h2 l hl)⟩

theorem next_own {p : Prog ty α} {o r : Loc → Prop} {m : Mem ty} {q : α → Mem ty → Prop}
    (h : p.wp o r m q) {w : Bool} {l : Loc} (e : p.next = some (w, l)) :
    (o l ∨ r l) ∧ (w = true → o l) := by
  cases p with
  | rd l' k =>
    cases e
    exact ⟨h.1, fun c => by cases c⟩
  | wr l' v k =>
    cases e
    exact ⟨.inl h.1, fun _ => h.1⟩
  | acq l k => cases e
  | rel l k => cases e
  | ret a => cases e
  | fail => cases e
  | ub => cases e

theorem uses_own {p : Prog ty α} {o r : Loc → Prop} {m : Mem ty} {q : α → Mem ty → Prop}
    (h : p.wp o r m q) {l : Loc} (e : p.uses = some l) : o l ∨ r l := by
  cases p with
  | rd l' k =>
    cases e
    exact h.1
  | wr l' v k =>
    cases e
    exact .inl h.1
  | acq l k => exact h.elim
  | rel l k => exact h.elim
  | ret a => cases e
  | fail => cases e
  | ub => cases e

theorem apart_sound {s : Team ty σ} {inb : Loc → Bool} (hd : ∀ t t' l, t ≠ t' → own t l → ¬ own t' l)
    (hr : ∀ t l, ro l → ¬ own t l) (hi : ∀ t l, own t l ∨ ro l → inb l = true)
    (h : s.Apart own ro Q) : ¬ s.Racing ∧ ¬ s.Broken inb := by
  constructor
  · rintro ⟨t, t', w, w', l, hne, e, e', hw⟩
    obtain ⟨h1, h2⟩ := next_own (h t) e
    obtain ⟨h3, h4⟩ := next_own (h t') e'
    rcases hw with hw | hw
    · exact h3.elim (hd t t' l hne (h2 hw)) fun g => hr t l g (h2 hw)
    · exact h1.elim (fun g => hd t t' l hne g (h4 hw)) fun g => hr t' l g (h4 hw)
  · rintro ⟨t, hb | ⟨l, e, hl⟩⟩
    · have ht := h t
      cases e : s.prog t with
      | fail => rw [e] at ht; exact ht
      | ub => rw [e] at ht; exact ht
      | ret a => rw [e] at hb; exact hb
      | rd l k => rw [e] at hb; exact hb
      | wr l v k => rw [e] at hb; exact hb
      | acq l k => rw [e] at hb; exact hb
      | rel l k => rw [e] at hb; exact hb
    · rw [hi t l (uses_own (h t) e)] at hl
      cases hl

theorem apart_done {s : Team ty σ} (h : s.Apart own ro Q) (hf : s.Finished) (t : Nat) :
    ∃ a, Q t a s.mem := by
  have ht := h t
  have hd := hf t
  cases e : s.prog t with
  | ret a => rw [e] at ht; exact ⟨a, ht⟩
  | rd l k => rw [e] at hd; exact hd.elim
  | wr l v k => rw [e] at hd; exact hd.elim
  | acq l k => rw [e] at hd; exact hd.elim
  | rel l k => rw [e] at hd; exact hd.elim
  | fail => rw [e] at ht; exact absurd ht id
  | ub => rw [e] at ht; exact absurd ht id

theorem apart_live {s : Team ty σ} (h : s.Apart own ro Q) (hc : ∀ t, s.can t = false) : s.Finished := by
  intro t
  have ht := h t
  have hd := hc t
  unfold can at hd
  cases e : s.prog t with
  | ret a => trivial
  | rd l k => rw [e] at hd; cases hd
  | wr l v k => rw [e] at hd; cases hd
  | acq l k => rw [e] at ht; exact ht.elim
  | rel l k => rw [e] at ht; exact ht.elim
  | fail => rw [e] at ht; exact ht.elim
  | ub => rw [e] at ht; exact ht.elim

/-- The accesses left to the first `T` threads. -/
def left (s : Team ty σ) (T : Nat) : Nat := ((List.range T).map fun t => (s.prog t).length s.mem).sum

theorem sum_le_of {f g : Nat → Nat} (l : List Nat) (h : ∀ t ∈ l, f t ≤ g t) :
    (l.map f).sum ≤ (l.map g).sum := by
  induction l with
  | nil => simp
  | cons a l ih =>
    simp only [List.map_cons, List.sum_cons]
    have h1 := h a (by simp)
    have h2 := ih fun t ht => h t (by simp [ht])
    omega

theorem sum_lt_of {f g : Nat → Nat} (l : List Nat) (h : ∀ t ∈ l, f t ≤ g t) {t : Nat} (ht : t ∈ l)
    (hlt : f t < g t) : (l.map f).sum + 1 ≤ (l.map g).sum := by
  induction l with
  | nil => simp at ht
  | cons a l ih =>
    simp only [List.map_cons, List.sum_cons]
    rcases List.mem_cons.1 ht with e | e
    · subst e
      have h2 := sum_le_of (f := f) (g := g) l fun t ht => h t (by simp [ht])
      omega
    · have h1 := h a (by simp)
      have h2 := ih (fun t ht => h t (by simp [ht])) e
      omega

theorem left_step {s : Team ty σ} (hd : ∀ t t' l, t ≠ t' → own t l → ¬ own t' l)
    (hr : ∀ t l, ro l → ¬ own t l) (h : s.Apart own ro Q) {T : Nat}
    (hT : ∀ t, T ≤ t → (s.prog t).next = none) (t : Nat) :
    (if s.can t then 1 else 0) + (s.step t).left T ≤ s.left T ∧
      ∀ t', T ≤ t' → ((s.step t).prog t').next = none := by
  have ht := h t
  have hlt : ((s.prog t).next).isSome = true → t < T := by
    intro c
    by_contra hn
    rw [hT t (by omega)] at c
    cases c
  unfold step can
  cases e : s.prog t with
  | acq l k => rw [e] at ht; exact ht.elim
  | rel l k => rw [e] at ht; exact ht.elim
  | rd l k =>
    rw [e] at ht hlt
    have htT : t < T := hlt rfl
    refine ⟨?_, fun t' h' => ?_⟩
    · have := sum_lt_of (f := fun t' => ((upd s.prog t (k (s.mem l))) t').length s.mem)
        (g := fun t' => (s.prog t').length s.mem) (List.range T) ?_ (List.mem_range.2 htT) ?_
      · show 1 + _ ≤ _
        unfold left
        simp only
        omega
      · intro t' _
        by_cases c : t' = t
        · subst c
          simp only [upd_same, e]
          show _ ≤ (k (s.mem l)).length s.mem + 1
          omega
        · simp only [upd_ne _ _ c]
          exact le_refl _
      · simp only [upd_same, e]
        show _ < (k (s.mem l)).length s.mem + 1
        omega
    · show ((upd s.prog t (k (s.mem l))) t').next = none
      rw [upd_ne _ _ (by omega)]
      exact hT t' h'
  | wr l v k =>
    rw [e] at ht hlt
    have htT : t < T := hlt rfl
    refine ⟨?_, fun t' h' => ?_⟩
    · have := sum_lt_of (f := fun t' => ((upd s.prog t k) t').length (Function.update s.mem l v))
        (g := fun t' => (s.prog t').length s.mem) (List.range T) ?_ (List.mem_range.2 htT) ?_
      · show 1 + _ ≤ _
        unfold left
        simp only
        omega
      · intro t' _
        by_cases c : t' = t
        · subst c
          simp only [upd_same, e]
          show _ ≤ k.length (Function.update s.mem l v) + 1
          omega
        · simp only [upd_ne _ _ c]
          refine le_of_eq (Prog.length_congr (h t') fun l' hl => ?_).symm
          rw [Function.update_of_ne]
          rintro rfl
          exact hl.elim (fun g => hd t t' _ (Ne.symm c) ht.1 g) fun g => hr t _ g ht.1
      · simp only [upd_same, e]
        show _ < k.length (Function.update s.mem l v) + 1
        omega
    · show ((upd s.prog t k) t').next = none
      rw [upd_ne _ _ (by omega)]
      exact hT t' h'
  | ret a => exact ⟨by simp, hT⟩
  | fail => exact ⟨by simp, hT⟩
  | ub => exact ⟨by simp, hT⟩

theorem moves_le {s : Team ty σ} (hd : ∀ t t' l, t ≠ t' → own t l → ¬ own t' l)
    (hr : ∀ t l, ro l → ¬ own t l)
    (hQ : ∀ t a n n', (∀ l, own t l ∨ ro l → n l = n' l) → Q t a n → Q t a n')
    (h : s.Apart own ro Q) {T : Nat}
    (hT : ∀ t, T ≤ t → (s.prog t).next = none) (cs : List Nat) : s.moves cs ≤ s.left T := by
  induction cs generalizing s with
  | nil => exact Nat.zero_le _
  | cons t cs ih =>
    obtain ⟨h1, h2⟩ := left_step hd hr h hT t
    have h3 := ih (apart_step hd hr hQ h t).1 h2
    show _ + (s.step t).moves cs ≤ _
    omega

theorem exec_append (s : Team ty σ) (cs cs' : List Nat) :
    s.exec (cs ++ cs') = (s.exec cs).exec cs' := by
  induction cs generalizing s with
  | nil => rfl
  | cons t cs ih => exact ih _

/-- One thread runs while the others wait. -/
theorem exec_run {inb : Loc → Bool} {p : Prog ty α} {m m' : Mem ty} {a : α}
    (h : p.run inb m = .ok (a, m')) (s : Team ty σ) (t : Nat) (k : α → Prog ty σ)
    (hp : s.prog t = p.bind k) (hm : s.mem = m) :
    ∃ cs, s.exec cs = ⟨m', s.held, upd s.prog t (k a)⟩ := by
  induction p generalizing m s with
  | ret b =>
    cases h
    refine ⟨[], ?_⟩
    obtain ⟨mem, held, prog⟩ := s
    cases hm
    have : upd prog t (k a) = prog := by
      funext t'
      by_cases c : t' = t
      · subst c
        rw [upd_same]
        exact hp.symm
      · rw [upd_ne _ _ c]
    rw [this]
    rfl
  | rd l f ih =>
    have h' : (if inb l then (f (m l)).run inb m else .ub) = Res.ok (a, m') := h
    have hl : inb l = true := by
      by_contra c
      rw [if_neg c] at h'
      cases h'
    rw [if_pos hl] at h'
    have hs : s.step t = ⟨m, s.held, upd s.prog t ((f (m l)).bind k)⟩ := by
      unfold step
      rw [hp]
      show (⟨s.mem, s.held, upd s.prog t ((f (s.mem l)).bind k)⟩ : Team ty σ) = _
      rw [hm]
    obtain ⟨cs, hcs⟩ := ih _ h' (s.step t) (by rw [hs]; exact upd_same _ _ _) (by rw [hs])
    refine ⟨t :: cs, ?_⟩
    show (s.step t).exec cs = _
    rw [hcs, hs]
    congr 1
    funext t'
    by_cases c : t' = t
    · subst c
      rw [upd_same, upd_same]
    · simp only [upd_ne _ _ c]
  | wr l v f ih =>
    have h' : (if inb l then f.run inb (Function.update m l v) else .ub) = Res.ok (a, m') := h
    have hl : inb l = true := by
      by_contra c
      rw [if_neg c] at h'
      cases h'
    rw [if_pos hl] at h'
    have hs : s.step t = ⟨Function.update m l v, s.held, upd s.prog t (f.bind k)⟩ := by
      unfold step
      rw [hp]
      show (⟨Function.update s.mem l v, s.held, upd s.prog t (f.bind k)⟩ : Team ty σ) = _
      rw [hm]
    obtain ⟨cs, hcs⟩ := ih h' (s.step t) (by rw [hs]; exact upd_same _ _ _) (by rw [hs])
    refine ⟨t :: cs, ?_⟩
    show (s.step t).exec cs = _
    rw [hcs, hs]
    congr 1
    funext t'
    by_cases c : t' = t
    · subst c
      rw [upd_same, upd_same]
    · simp only [upd_ne _ _ c]
  | acq l k => cases h
  | rel l k => cases h
  | fail => cases h
  | ub => cases h

/-- The iterations of a thread. -/
def its (sc : Sched) (t : Nat) : List Nat := (sc.filter fun ti => ti.1 = t).map fun ti => ti.2

theorem its_cons_self (t i : Nat) (sc : Sched) : its ((t, i) :: sc) t = i :: its sc t := by
  simp [its]

theorem its_cons_ne {t t' : Nat} (i : Nat) (sc : Sched) (h : t' ≠ t) :
    its ((t, i) :: sc) t' = its sc t' := by
  simp [its, Ne.symm h]

theorem mem_its {sc : Sched} {t i : Nat} : i ∈ its sc t ↔ (t, i) ∈ sc := by
  simp [its]

theorem atomic_exec {inb : Loc → Bool} {body : Nat → σ → Prog ty σ} (sc : Sched) (m : Mem ty)
    (x : Nat → σ) {m' : Mem ty} {x' : Nat → σ}
    (h : (forList sc (m, x) fun ti (st : Mem ty × (Nat → σ)) => do
      let r ← (body ti.2 (st.2 ti.1)).run inb st.1
      pure (r.2, upd st.2 ti.1 r.1)) = .ok (m', x')) :
    ∃ cs, ((⟨m, fun _ => false, fun t => Prog.forL (its sc t) (x t) body⟩ : Team ty σ).exec cs).mem = m' ∧
      ((⟨m, fun _ => false, fun t => Prog.forL (its sc t) (x t) body⟩ : Team ty σ).exec cs).Finished := by
  induction sc generalizing m x with
  | nil =>
    cases h
    exact ⟨[], rfl, fun t => trivial⟩
  | cons ti sc ih =>
    obtain ⟨t, i⟩ := ti
    have h0 : ((body i (x t)).run inb m).bind (fun r => forList sc (r.2, upd x t r.1)
        fun ti (st : Mem ty × (Nat → σ)) => do
          let r ← (body ti.2 (st.2 ti.1)).run inb st.1
          pure (r.2, upd st.2 ti.1 r.1)) = .ok (m', x') := by
      rw [← h]
      show _ = Res.bind (Res.bind _ _) _
      cases (body i (x t)).run inb m <;> rfl
    cases e : (body i (x t)).run inb m with
    | ok r =>
      rw [e] at h0
      obtain ⟨cs2, h2, h3⟩ := ih r.2 (upd x t r.1) h0
      obtain ⟨cs1, h1⟩ := exec_run (a := r.1) (m' := r.2) e
        (⟨m, fun _ => false, fun t' => Prog.forL (its ((t, i) :: sc) t') (x t') body⟩ : Team ty σ) t
        (fun s => Prog.forL (its sc t) s body)
        (by show Prog.forL (its ((t, i) :: sc) t) (x t) body = _; rw [its_cons_self]; rfl) rfl
      have hst : (⟨r.2, fun _ => false, upd (fun t' => Prog.forL (its ((t, i) :: sc) t') (x t') body) t
          (Prog.forL (its sc t) r.1 body)⟩ : Team ty σ) =
          ⟨r.2, fun _ => false, fun t' => Prog.forL (its sc t') (upd x t r.1 t') body⟩ := by
        congr 1
        funext t'
        by_cases c : t' = t
        · subst c
          rw [upd_same, upd_same]
        · rw [upd_ne _ _ c, upd_ne _ _ c, its_cons_ne _ _ c]
      refine ⟨cs1 ++ cs2, ?_, ?_⟩
      · rw [exec_append, h1, hst]
        exact h2
      · rw [exec_append, h1, hst]
        exact h3
    | error => rw [e] at h0; cases h0
    | ub => rw [e] at h0; cases h0

section Loops

variable {body : Nat → σ → Prog ty σ} {m0 : Mem ty} {Clean : σ → Prop}

/-- The iterations of one thread keep to the locations of these iterations. -/
theorem forL_wp (is : List Nat)
    (hb : ∀ i ∈ is, ∀ s m, Clean s → (∀ l, (∀ j, j ≠ i → ¬ own j l) → m l = m0 l) →
      (body i s).wp (own i) ro m fun s' _ => Clean s')
    (hn : is.Nodup) (m : Mem ty) (s : σ) (hs : Clean s)
    (hm : ∀ i ∈ is, ∀ l, (∀ j, j ≠ i → ¬ own j l) → m l = m0 l) :
    (Prog.forL is s body).wp (fun l => ∃ i ∈ is, own i l) ro m fun s _ => Clean s := by
  induction is generalizing m s with
  | nil => exact hs
  | cons i is ih =>
    rw [List.nodup_cons] at hn
    show ((body i s).bind _).wp _ _ _ _
    rw [Prog.wp_bind]
    have h1 := Prog.wp_frame (hb i (by simp) s m hs (hm i (by simp)))
    refine Prog.wp_mono (Prog.wp_own h1 (fun l hl => ⟨i, by simp, hl⟩) fun l hl => .inr hl) ?_
    rintro s' m' ⟨hs', hf⟩
    refine Prog.wp_own (ih (fun j hj => hb j (by simp [hj])) hn.2 m' s' hs' ?_)
      (fun l hl => ?_) fun l hl => .inr hl
    · intro j hj l hl
      rw [hf l (hl i (by rintro rfl; exact hn.1 hj))]
      exact hm j (by simp [hj]) l hl
    · obtain ⟨j, hj, hl⟩ := hl
      exact ⟨j, by simp [hj], hl⟩

/-- The loop with uninterrupted iterations ends normally, as the loop of the model does. -/
theorem atomic_ok {inb : Loc → Bool} {τ : Type} {view : Mem ty → τ} {step : Nat → τ → σ → Res (τ × σ)}
    (hi : ∀ i l, own i l ∨ ro l → inb l = true) (sc : Sched)
    (hb : ∀ ti ∈ sc, ∀ s m, Clean s → (∀ l, (∀ j, j ≠ ti.2 → ¬ own j l) → m l = m0 l) →
      ∃ b, step ti.2 (view m) s = .ok b ∧ (body ti.2 s).wp (own ti.2) ro m fun s' m' =>
        Clean s' ∧ view m' = b.1 ∧ s' = b.2)
    (hn : (sc.map fun ti => ti.2).Nodup) (m : Mem ty) (x : Nat → σ) (hx : ∀ t, Clean (x t))
    (hm : ∀ ti ∈ sc, ∀ l, (∀ j, j ≠ ti.2 → ¬ own j l) → m l = m0 l) :
    ∃ m' x', (forList sc (m, x) fun ti (st : Mem ty × (Nat → σ)) => do
      let r ← (body ti.2 (st.2 ti.1)).run inb st.1
      pure (r.2, upd st.2 ti.1 r.1)) = .ok (m', x') ∧
      (forList sc (view m, x) fun ti (st : τ × (Nat → σ)) => do
        let r ← step ti.2 st.1 (st.2 ti.1)
        pure (r.1, upd st.2 ti.1 r.2)) = .ok (view m', x') := by
  induction sc generalizing m x with
  | nil => exact ⟨m, x, rfl, rfl⟩
  | cons ti sc ih =>
    obtain ⟨t, i⟩ := ti
    rw [List.map_cons, List.nodup_cons] at hn
    obtain ⟨b, hstep, hw⟩ := hb (t, i) (by simp) (x t) m (hx t) (hm (t, i) (by simp))
    obtain ⟨s', m1, e, ⟨hs', hv, hsb⟩, hf⟩ := Prog.wp_run (Prog.wp_frame hw) (hi i)
    have a1 : ∀ t', Clean (upd x t s' t') := by
      intro t'
      by_cases c : t' = t
      · subst c
        rw [upd_same]
        exact hs'
      · rw [upd_ne _ _ c]
        exact hx t'
    have a2 : ∀ tj ∈ sc, ∀ l, (∀ j, j ≠ tj.2 → ¬ own j l) → m1 l = m0 l := by
      intro tj hj l hl
      rw [hf l (hl i ?_)]
      · exact hm tj (by simp [hj]) l hl
      · intro c
        exact hn.1 (List.mem_map.2 ⟨tj, hj, c.symm⟩)
    obtain ⟨m', x', h2, h3⟩ := ih (fun tj hj => hb tj (by simp [hj])) hn.2 m1 (upd x t s') a1 a2
    refine ⟨m', x', ?_, ?_⟩
    · rw [← h2]
      show Res.bind (Res.bind ((body i (x t)).run inb m) _) _ = _
      rw [e]
      rfl
    · rw [← h3]
      show Res.bind (Res.bind (step i (view m) (x t)) _) _ = _
      simp only at hstep
      rw [hstep, hv, hsb]
      rfl

theorem nodup_its {sc : Sched} (hn : (sc.map fun ti => ti.2).Nodup) (t : Nat) : (its sc t).Nodup :=
  hn.sublist (List.filter_sublist.map _)

theorem thread_unique {sc : Sched} (hn : (sc.map fun ti => ti.2).Nodup) {t t' i : Nat}
    (h : (t, i) ∈ sc) (h' : (t', i) ∈ sc) : t = t' := by
  induction sc with
  | nil => cases h
  | cons ti sc ih =>
    rw [List.map_cons, List.nodup_cons] at hn
    rcases List.mem_cons.1 h with e | e <;> rcases List.mem_cons.1 h' with e' | e'
    · rw [← e] at e'
      exact (Prod.mk.inj e').1.symm
    · exact absurd (List.mem_map.2 ⟨(t', i), e', by rw [← e]⟩) hn.1
    · exact absurd (List.mem_map.2 ⟨(t, i), e, by rw [← e']⟩) hn.1
    · exact ih hn.2 e e'

/-- A parallel loop whose iterations have their own locations: it has no data race, ends, and leaves
what the loop of the model leaves, and the locations that no iteration owns are unchanged.  `view` is
what the model works on, and `hb` says that an iteration does what the model says whenever the locations
that belong to no other iteration are as in the beginning. -/
theorem reduction {inb : Loc → Bool} {sc : Sched} {s0 : σ} {τ : Type} {view : Mem ty → τ}
    {step : Nat → τ → σ → Res (τ × σ)}
    (hd : ∀ i j l, i ≠ j → own i l → ¬ own j l)
    (hr : ∀ i l, ro l → ¬ own i l) (hi : ∀ i l, own i l ∨ ro l → inb l = true)
    (hn : (sc.map fun ti => ti.2).Nodup) (h0 : Clean s0)
    (hb : ∀ ti ∈ sc, ∀ s m, Clean s → (∀ l, (∀ j, j ≠ ti.2 → ¬ own j l) → m l = m0 l) →
      ∃ b, step ti.2 (view m) s = .ok b ∧ (body ti.2 s).wp (own ti.2) ro m fun s' m' =>
        Clean s' ∧ view m' = b.1 ∧ s' = b.2) :
    (start m0 s0 sc body).Safe inb fun m =>
      (∃ x, (forList sc (view m0, fun _ => s0) fun ti (st : τ × (Nat → σ)) => do
        let r ← step ti.2 st.1 (st.2 ti.1)
        pure (r.1, upd st.2 ti.1 r.2)) = .ok (view m, x)) ∧
      ∀ l, (∀ i, ¬ own i l) → m l = m0 l := by
  -- the footprints of the threads
  let ownT : Nat → Loc → Prop := fun t l => ∃ i ∈ its sc t, own i l
  have hdT : ∀ t t' l, t ≠ t' → ownT t l → ¬ ownT t' l := by
    rintro t t' l hne ⟨i, hi1, hi2⟩ ⟨j, hj1, hj2⟩
    by_cases c : i = j
    · subst c
      exact hne (thread_unique hn (mem_its.1 hi1) (mem_its.1 hj1))
    · exact hd i j l c hi2 hj2
  have hrT : ∀ t l, ro l → ¬ ownT t l := by
    rintro t l hl ⟨i, _, hi2⟩
    exact hr i l hl hi2
  have hiT : ∀ t l, ownT t l ∨ ro l → inb l = true := by
    rintro t l (⟨i, _, hi2⟩ | hl)
    · exact hi i l (.inl hi2)
    · exact hi 0 l (.inr hl)
  have hw : ∀ t, ((start m0 s0 sc body).prog t).wp (ownT t) ro m0 fun s _ => Clean s := fun t =>
    forL_wp (its sc t) (fun i hi s m hs hm => by
      obtain ⟨b, -, hw⟩ := hb (t, i) (mem_its.1 hi) s m hs hm
      exact Prog.wp_mono hw fun _ _ h => h.1) (nodup_its hn t) m0 s0 h0 fun _ _ _ _ => rfl
  -- the result of each thread alone
  have hex : ∀ t, ∃ mt : Mem ty, ((start m0 s0 sc body).prog t).wp (ownT t) ro m0
      fun _ m => ∀ l, ownT t l → m l = mt l := by
    intro t
    obtain ⟨a, m', e, -⟩ := Prog.wp_run (hw t) (hiT t)
    exact ⟨m', Prog.wp_of_run (hw t) e⟩
  choose mt hmt using hex
  have hA : (start m0 s0 sc body).Apart ownT ro fun t _ m => ∀ l, ownT t l → m l = mt t l := hmt
  have hQ : ∀ t (a : σ) (n n' : Mem ty), (∀ l, ownT t l ∨ ro l → n l = n' l) →
      (∀ l, ownT t l → n l = mt t l) → ∀ l, ownT t l → n' l = mt t l := by
    intro t a n n' hnn h l hl
    rw [← hnn l (.inl hl)]
    exact h l hl
  -- all executions end in the same memory
  have hfin : ∀ cs cs', ((start m0 s0 sc body).exec cs).Finished → ((start m0 s0 sc body).exec cs').Finished →
      ((start m0 s0 sc body).exec cs).mem = ((start m0 s0 sc body).exec cs').mem := by
    intro cs cs' h h'
    obtain ⟨h1, h2⟩ := apart_exec hdT hrT hQ hA cs
    obtain ⟨h3, h4⟩ := apart_exec hdT hrT hQ hA cs'
    funext l
    by_cases c : ∃ t, ownT t l
    · obtain ⟨t, ht⟩ := c
      obtain ⟨_, e1⟩ := apart_done h1 h t
      obtain ⟨_, e2⟩ := apart_done h3 h' t
      rw [e1 l ht, e2 l ht]
    · rw [h2 l fun t ht => c ⟨t, ht⟩, h4 l fun t ht => c ⟨t, ht⟩]
  refine ⟨fun cs => ?_, fun cs => ?_, ?_, fun cs hc => ?_, fun cs hrest => ?_⟩
  · exact (apart_sound hdT hrT hiT (apart_exec hdT hrT hQ hA cs).1).1
  · exact (apart_sound hdT hrT hiT (apart_exec hdT hrT hQ hA cs).1).2
  · obtain ⟨T, hT⟩ : ∃ T, ∀ ti ∈ sc, ti.1 < T := by
      clear hw hA hfin hQ hmt mt hiT hrT hdT hb hn
      induction sc with
      | nil => exact ⟨0, by simp⟩
      | cons ti sc ih =>
        obtain ⟨T, hT⟩ := ih
        refine ⟨max T (ti.1 + 1), fun tj hj => ?_⟩
        rcases List.mem_cons.1 hj with e | e
        · subst e
          omega
        · have := hT tj e
          omega
    refine ⟨_, fun cs => moves_le hdT hrT hQ hA (T := T) (fun t ht => ?_) cs⟩
    have : its sc t = [] := by
      rw [List.eq_nil_iff_forall_not_mem]
      intro i hi
      have := hT _ (mem_its.1 hi)
      simp only at this
      omega
    show (Prog.forL (its sc t) s0 body).next = none
    rw [this]
    rfl
  · exact apart_live (apart_exec hdT hrT hQ hA cs).1 hc
  · obtain ⟨m', x', e, e'⟩ := atomic_ok (own := own) hi sc hb hn m0 (fun _ => s0) (fun _ => h0)
      fun _ _ _ _ => rfl
    obtain ⟨cs', h1, h2⟩ := atomic_exec sc m0 (fun _ => s0) e
    refine ⟨⟨x', ?_⟩, fun l hl => ?_⟩
    · rw [hfin cs cs' hrest h2]
      rw [show ((start m0 s0 sc body).exec cs').mem = m' from h1]
      exact e'
    · exact (apart_exec hdT hrT hQ hA cs).2 l fun t ⟨i, _, hil⟩ => hl i hil

end Loops

end Team

end Race
end Bml
