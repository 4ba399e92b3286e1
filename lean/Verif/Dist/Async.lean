import Verif.Basic
import Mathlib.Algebra.Order.BigOperators.Group.Finset

/-!
# Message passing between ranks

The functions for distributed matrices are written in phases.  In a phase a rank posts a receive
(`MPI_Irecv`), sends (`MPI_Send`), waits for its receive (`MPI_Wait`) and computes.  Here is the
asynchronous semantics of such programs: every rank runs at its own speed, messages wait in first-in
first-out channels, one per ordered pair of ranks (MPI's non-overtaking rule for one communicator and
one tag).  Whether a send waits for the matching receive is the choice of the MPI library; the
theorems hold for every choice.

The result: every interleaving ends, none is stuck, and all end in the state that the phase by phase
computation `Net.sync` gives.
-/

namespace Bml.Dist

/-- A program in phases, for `P` ranks and `K` phases, over local states `S` and messages `μ`.
`part k r`: rank `r` communicates in phase `k`; it sends to `dst k r` and receives from `src k r`.
`pre` is the computation at the start of the phase, `pay` the message, `fin` the computation at the
end, given the message received (`none` for a rank that does not communicate). -/
structure Net (S μ : Type) where
  P : Nat
  K : Nat
  part : Nat → Nat → Bool
  src : Nat → Nat → Nat
  dst : Nat → Nat → Nat
  pre : Nat → Nat → S → S
  pay : Nat → Nat → S → μ
  fin : Nat → Nat → S → Option μ → S

/-- Where a rank is within its phase: before it, after `MPI_Irecv`, after `MPI_Send`. -/
inductive Sub where
  | start
  | posted
  | sent
  deriving DecidableEq

/-- A global state: phase, place within the phase and local state of every rank, and the messages
under way from one rank to another, oldest first. -/
structure Conf (S μ : Type) where
  pc : Nat → Nat
  sub : Nat → Sub
  st : Nat → S
  ch : Nat → Nat → List μ

namespace Net

variable {S μ : Type} (net : Net S μ)

/-- The start: nothing sent. -/
def init (s : Nat → S) : Conf S μ := ⟨fun _ => 0, fun _ => .start, s, fun _ _ => []⟩

/-- The receive that matches the send of rank `r` is posted. -/
def Ready (c : Conf S μ) (r : Nat) : Prop :=
  c.pc (net.dst (c.pc r) r) = c.pc r ∧ c.sub (net.dst (c.pc r) r) ≠ .start

/-- One step of one rank.  `can c r` says that the MPI library lets rank `r` complete its send. -/
inductive Step (can : Conf S μ → Nat → Prop) : Conf S μ → Conf S μ → Prop
  | skip (c : Conf S μ) (r : Nat) : r < net.P → c.pc r < net.K → c.sub r = .start →
      net.part (c.pc r) r = false →
      Step can c { c with
        pc := upd c.pc r (c.pc r + 1)
        st := upd c.st r (net.fin (c.pc r) r (net.pre (c.pc r) r (c.st r)) none) }
  | post (c : Conf S μ) (r : Nat) : r < net.P → c.pc r < net.K → c.sub r = .start →
      net.part (c.pc r) r = true →
      Step can c { c with
        sub := upd c.sub r .posted
        st := upd c.st r (net.pre (c.pc r) r (c.st r)) }
  | send (c : Conf S μ) (r : Nat) : r < net.P → c.sub r = .posted → can c r →
      Step can c { c with
        sub := upd c.sub r .sent
        ch := fun x y => if x = r ∧ y = net.dst (c.pc r) r then
          c.ch x y ++ [net.pay (c.pc r) r (c.st r)] else c.ch x y }
  | recv (c : Conf S μ) (r : Nat) (m : μ) (rest : List μ) : r < net.P → c.sub r = .sent →
      c.ch (net.src (c.pc r) r) r = m :: rest →
      Step can c {
        pc := upd c.pc r (c.pc r + 1)
        sub := upd c.sub r .start
        st := upd c.st r (net.fin (c.pc r) r (c.st r) (some m))
        ch := fun x y => if x = net.src (c.pc r) r ∧ y = r then rest else c.ch x y }

/-- Reached in `n` steps. -/
inductive Reach (can : Conf S μ → Nat → Prop) (s : Nat → S) : Nat → Conf S μ → Prop
  | zero : Reach can s 0 (init s)
  | succ {n : Nat} {c c' : Conf S μ} : Reach can s n c → net.Step can c c' → Reach can s (n + 1) c'

/-- Sends and receives match up. -/
structure Matched : Prop where
  src : ∀ k r, k < net.K → r < net.P → net.part k r = true →
    net.src k r < net.P ∧ net.part k (net.src k r) = true ∧ net.dst k (net.src k r) = r
  dst : ∀ k r, k < net.K → r < net.P → net.part k r = true →
    net.dst k r < net.P ∧ net.part k (net.dst k r) = true ∧ net.src k (net.dst k r) = r

/-- The phase by phase computation: the states after `k` phases. -/
def sync (s : Nat → S) : Nat → Nat → S
  | 0, r => s r
  | k + 1, r => net.fin k r (net.pre k r (sync s k r))
      (if net.part k r then
        some (net.pay k (net.src k r) (net.pre k (net.src k r) (sync s k (net.src k r))))
      else none)

/-- What rank `x` sends in phase `k`. -/
def out (s : Nat → S) (k x : Nat) : μ := net.pay k x (net.pre k x (net.sync s k x))

/-- The messages from `x` to `y` in the phases from `lo` to below `hi`. -/
def msgs (s : Nat → S) (x y lo hi : Nat) : List μ :=
  ((List.range' lo (hi - lo)).filter fun k => net.part k x && net.dst k x == y).map
    fun k => net.out s k x

variable {net}

theorem msgs_snoc {s : Nat → S} {x y lo hi : Nat} (h : lo ≤ hi) (hp : net.part hi x = true)
    (hd : net.dst hi x = y) : net.msgs s x y lo (hi + 1) = net.msgs s x y lo hi ++ [net.out s hi x] := by
  unfold msgs
  rw [show hi + 1 - lo = (hi - lo) + 1 by omega, List.range'_concat, List.filter_append,
    List.map_append]
  congr 1
  rw [show lo + 1 * (hi - lo) = hi by omega]
  simp [hp, hd]

theorem msgs_top {s : Nat → S} {x y lo hi : Nat} (h : ¬ (net.part hi x = true ∧ net.dst hi x = y)) :
    net.msgs s x y lo (hi + 1) = net.msgs s x y lo hi := by
  unfold msgs
  by_cases hl : lo ≤ hi
  · rw [show hi + 1 - lo = (hi - lo) + 1 by omega, List.range'_concat, List.filter_append,
      List.map_append, show lo + 1 * (hi - lo) = hi by omega]
    have : (net.part hi x && net.dst hi x == y) = false := by
      by_cases h1 : net.part hi x = true
      · have : net.dst hi x ≠ y := fun e => h ⟨h1, e⟩
        simp [this]
      · simp [h1]
    simp [this]
  · rw [show hi + 1 - lo = 0 by omega, show hi - lo = 0 by omega]

theorem msgs_cons {s : Nat → S} {x y lo hi : Nat} (h : lo < hi) (hp : net.part lo x = true)
    (hd : net.dst lo x = y) :
    net.msgs s x y lo hi = net.out s lo x :: net.msgs s x y (lo + 1) hi := by
  unfold msgs
  rw [show hi - lo = (hi - (lo + 1)) + 1 by omega, List.range'_succ, List.filter_cons]
  simp [hp, hd]

theorem msgs_bot {s : Nat → S} {x y lo hi : Nat}
    (h : ¬ (net.part lo x = true ∧ net.dst lo x = y)) :
    net.msgs s x y (lo + 1) hi = net.msgs s x y lo hi := by
  by_cases hl : lo < hi
  · unfold msgs
    rw [show hi - lo = (hi - (lo + 1)) + 1 by omega, List.range'_succ, List.filter_cons]
    have : (net.part lo x && net.dst lo x == y) = false := by
      by_cases h1 : net.part lo x = true
      · have : net.dst lo x ≠ y := fun e => h ⟨h1, e⟩
        simp [this]
      · simp [h1]
    simp [this]
  · unfold msgs
    rw [show hi - lo = 0 by omega, show hi - (lo + 1) = 0 by omega]
    rfl

theorem msgs_empty {s : Nat → S} {x y lo hi : Nat} (h : hi ≤ lo) : net.msgs s x y lo hi = [] := by
  unfold msgs
  rw [show hi - lo = 0 by omega]
  rfl

/-- The phases whose message rank `x` has sent are those below this one. -/
def done (c : Conf S μ) (x : Nat) : Nat := if c.sub x = .sent then c.pc x + 1 else c.pc x

/-- The invariant of all executions. -/
structure Inv (net : Net S μ) (s : Nat → S) (c : Conf S μ) : Prop where
  le : ∀ r, r < net.P → c.pc r ≤ net.K
  busy : ∀ r, r < net.P → c.sub r ≠ .start → c.pc r < net.K ∧ net.part (c.pc r) r = true
  st : ∀ r, r < net.P → c.st r = if c.sub r = .start then net.sync s (c.pc r) r
    else net.pre (c.pc r) r (net.sync s (c.pc r) r)
  ch : ∀ x y, x < net.P → y < net.P → c.ch x y = net.msgs s x y (c.pc y) (done c x)
  past : ∀ x y k, x < net.P → y < net.P → k < c.pc y → net.part k x = true → net.dst k x = y →
    k < done c x

theorem inv_init (s : Nat → S) : Inv net s (init s) where
  le _ _ := Nat.zero_le _
  busy _ _ h := absurd rfl h
  st _ _ := rfl
  ch _ _ _ _ := rfl
  past _ _ _ _ _ h := absurd h (Nat.not_lt_zero _)

theorem Inv.step (hm : net.Matched) {can : Conf S μ → Nat → Prop} {s : Nat → S} {c c' : Conf S μ}
    (h : Inv net s c) (hs : net.Step can c c') : Inv net s c' := by
  cases hs with
  | skip r hr hk hst hp =>
    have hdone : ∀ x, done { c with
        pc := upd c.pc r (c.pc r + 1)
        st := upd c.st r (net.fin (c.pc r) r (net.pre (c.pc r) r (c.st r)) none) } x =
        if x = r then c.pc r + 1 else done c x := by
      intro x
      by_cases hx : x = r
      · subst hx
        simp [done, hst, upd_same]
      · simp [done, hx, upd_ne _ _ hx]
    constructor
    · intro q hq
      by_cases e : q = r
      · subst e; simp only [upd_same]; omega
      · simp only [upd_ne _ _ e]; exact h.le q hq
    · intro q hq hb
      have e : q ≠ r := by rintro rfl; exact hb hst
      simp only [upd_ne _ _ e] at hb ⊢
      exact h.busy q hq hb
    · intro q hq
      by_cases e : q = r
      · subst e
        simp only [upd_same, hst, if_true]
        have hs := h.st q hr
        rw [if_pos hst] at hs
        rw [hs, sync, hp]
        rfl
      · simp only [upd_ne _ _ e]; exact h.st q hq
    · intro x y hx hy
      rw [hdone]
      show c.ch x y = _
      rw [h.ch x y hx hy]
      have hlo : net.msgs s x y (upd c.pc r (c.pc r + 1) y) (done c x) =
          net.msgs s x y (c.pc y) (done c x) := by
        by_cases e : y = r
        · subst e
          rw [upd_same]
          refine msgs_bot ?_
          rintro ⟨h1, h2⟩
          have := (hm.dst _ x hk hx h1).2.1
          rw [h2, hp] at this
          exact absurd this (by simp)
        · rw [upd_ne _ _ e]
      by_cases e : x = r
      · subst e
        rw [if_pos rfl, msgs_top (by rintro ⟨h1, -⟩; rw [hp] at h1; exact absurd h1 (by simp))]
        have : done c x = c.pc x := by simp [done, hst]
        rw [this] at hlo ⊢
        exact hlo.symm
      · rw [if_neg e]; exact hlo.symm
    · intro x y k hx hy hky h1 h2
      rw [hdone]
      change k < upd c.pc r (c.pc r + 1) y at hky
      have hk' : k < c.pc y := by
        by_cases e : y = r
        · subst e
          rw [upd_same] at hky
          by_contra hc
          have : k = c.pc y := by omega
          subst this
          have := (hm.dst _ x hk hx h1).2.1
          rw [h2, hp] at this
          exact absurd this (by simp)
        · rwa [upd_ne _ _ e] at hky
      have := h.past x y k hx hy hk' h1 h2
      by_cases e : x = r
      · subst e
        rw [if_pos rfl]
        have : done c x = c.pc x := by simp [done, hst]
        omega
      · rwa [if_neg e]
  | post r hr hk hst hp =>
    have hdone : ∀ x, done { c with
        sub := upd c.sub r .posted
        st := upd c.st r (net.pre (c.pc r) r (c.st r)) } x = done c x := by
      intro x
      by_cases hx : x = r
      · subst hx
        simp [done, hst, upd_same]
      · simp [done, upd_ne _ _ hx]
    constructor
    · exact h.le
    · intro q hq hb
      by_cases e : q = r
      · subst e; exact ⟨hk, hp⟩
      · simp only [upd_ne _ _ e] at hb ⊢
        exact h.busy q hq hb
    · intro q hq
      by_cases e : q = r
      · subst e
        simp only [upd_same]
        have hs := h.st q hr
        rw [if_pos hst] at hs
        rw [hs, if_neg (by simp)]
      · simp only [upd_ne _ _ e]; exact h.st q hq
    · intro x y hx hy
      rw [hdone]
      exact h.ch x y hx hy
    · intro x y k hx hy hky h1 h2
      rw [hdone]
      exact h.past x y k hx hy hky h1 h2
  | send r hr hst hcan =>
    obtain ⟨hk, hp⟩ := h.busy r hr (by rw [hst]; simp)
    have hdr : done c r = c.pc r := by simp [done, hst]
    have hdone : ∀ x, done { c with
        sub := upd c.sub r .sent
        ch := fun x y => if x = r ∧ y = net.dst (c.pc r) r then
          c.ch x y ++ [net.pay (c.pc r) r (c.st r)] else c.ch x y } x =
        if x = r then c.pc r + 1 else done c x := by
      intro x
      by_cases hx : x = r
      · subst hx
        simp [done, upd_same]
      · simp [done, upd_ne _ _ hx, hx]
    have hs := h.st r hr
    rw [if_neg (by rw [hst]; simp)] at hs
    constructor
    · exact h.le
    · intro q hq hb
      by_cases e : q = r
      · subst e; exact ⟨hk, hp⟩
      · simp only [upd_ne _ _ e] at hb ⊢
        exact h.busy q hq hb
    · intro q hq
      by_cases e : q = r
      · subst e
        simp only [upd_same]
        rw [if_neg (by simp)]
        exact hs
      · simp only [upd_ne _ _ e]; exact h.st q hq
    · intro x y hx hy
      rw [hdone]
      show (if x = r ∧ y = net.dst (c.pc r) r then _ else _) = _
      by_cases e : x = r
      · subst e
        rw [if_pos rfl]
        by_cases ey : y = net.dst (c.pc x) x
        · rw [if_pos ⟨rfl, ey⟩, h.ch x y hx hy, hdr, hs]
          refine (msgs_snoc ?_ hp ey.symm).symm
          by_contra hc
          have := h.past x y (c.pc x) hx hy (by omega) hp ey.symm
          omega
        · rw [if_neg (by tauto), h.ch x y hx hy, hdr]
          exact (msgs_top (fun hh => ey hh.2.symm)).symm
      · rw [if_neg (by tauto), if_neg e]
        exact h.ch x y hx hy
    · intro x y k hx hy hky h1 h2
      rw [hdone]
      have := h.past x y k hx hy hky h1 h2
      by_cases e : x = r
      · subst e; rw [if_pos rfl]; omega
      · rwa [if_neg e]
  | recv r m rest hr hst hch =>
    obtain ⟨hk, hp⟩ := h.busy r hr (by rw [hst]; simp)
    obtain ⟨hx, hxp, hxd⟩ := hm.src _ r hk hr hp
    have hdr : done c r = c.pc r + 1 := by simp [done, hst]
    have hdone : ∀ x, done {
        pc := upd c.pc r (c.pc r + 1)
        sub := upd c.sub r .start
        st := upd c.st r (net.fin (c.pc r) r (c.st r) (some m))
        ch := fun x y => if x = net.src (c.pc r) r ∧ y = r then rest else c.ch x y } x = done c x := by
      intro x
      by_cases hx : x = r
      · subst hx
        simp [done, upd_same, hst]
      · simp [done, upd_ne _ _ hx]
    have hs := h.st r hr
    rw [if_neg (by rw [hst]; simp)] at hs
    have hq := h.ch _ r hx hr
    have hlt : c.pc r < done c (net.src (c.pc r) r) := by
      by_contra hc
      rw [msgs_empty (by omega), hch] at hq
      exact absurd hq (by simp)
    rw [msgs_cons hlt hxp hxd, hch, List.cons.injEq] at hq
    constructor
    · intro q hq
      by_cases e : q = r
      · subst e; simp only [upd_same]; omega
      · simp only [upd_ne _ _ e]; exact h.le q hq
    · intro q hq hb
      have e : q ≠ r := by rintro rfl; simp only [upd_same] at hb; exact hb rfl
      simp only [upd_ne _ _ e] at hb ⊢
      exact h.busy q hq hb
    · intro q hq'
      by_cases e : q = r
      · subst e
        simp only [upd_same, if_true]
        rw [hs, sync, hp, if_pos rfl, hq.1]
        rfl
      · simp only [upd_ne _ _ e]; exact h.st q hq'
    · intro x y hx' hy
      rw [hdone]
      show (if x = net.src (c.pc r) r ∧ y = r then rest else c.ch x y) =
        net.msgs s x y (upd c.pc r (c.pc r + 1) y) (done c x)
      by_cases e : y = r
      · subst e
        rw [upd_same]
        by_cases ex : x = net.src (c.pc y) y
        · rw [if_pos ⟨ex, rfl⟩, ex]
          exact hq.2
        · rw [if_neg (by tauto), h.ch x y hx' hy]
          refine (msgs_bot ?_).symm
          rintro ⟨h1, h2⟩
          have := (hm.dst _ x hk hx' h1).2.2
          rw [h2] at this
          exact ex this.symm
      · rw [if_neg (by tauto), upd_ne _ _ e]
        exact h.ch x y hx' hy
    · intro x y k hx' hy hky h1 h2
      rw [hdone]
      change k < upd c.pc r (c.pc r + 1) y at hky
      by_cases e : y = r
      · subst e
        rw [upd_same] at hky
        by_cases ek : k < c.pc y
        · exact h.past x y k hx' hy ek h1 h2
        · have : k = c.pc y := by omega
          subst this
          have := (hm.dst _ x hk hx' h1).2.2
          rw [h2] at this
          rwa [this] at hlt
      · rw [upd_ne _ _ e] at hky
        exact h.past x y k hx' hy hky h1 h2

/-- How far a rank is. -/
def far (c : Conf S μ) (r : Nat) : Nat :=
  3 * c.pc r + match c.sub r with
    | .start => 0
    | .posted => 1
    | .sent => 2

theorem Step.far_lt {can : Conf S μ → Nat → Prop} {c c' : Conf S μ} (hs : net.Step can c c') :
    ∑ r ∈ Finset.range net.P, far c r + 1 ≤ ∑ r ∈ Finset.range net.P, far c' r := by
  have key : ∀ (r : Nat), r < net.P → (∀ q, q ≠ r → far c' q = far c q) → far c r + 1 ≤ far c' r →
      ∑ r ∈ Finset.range net.P, far c r + 1 ≤ ∑ r ∈ Finset.range net.P, far c' r := by
    intro r hr h1 h2
    have hmem := Finset.mem_range.2 hr
    have e1 := Finset.sum_erase_add (Finset.range net.P) (far c) hmem
    have e2 := Finset.sum_erase_add (Finset.range net.P) (far c') hmem
    have e3 : ∑ q ∈ (Finset.range net.P).erase r, far c' q =
        ∑ q ∈ (Finset.range net.P).erase r, far c q :=
      Finset.sum_congr rfl (fun q hq => h1 q (Finset.ne_of_mem_erase hq))
    omega
  cases hs with
  | skip r hr hk hst hp =>
    refine key r hr (fun q hq => by simp [far, upd_ne _ _ hq]) ?_
    simp only [far, upd_same, hst]
    omega
  | post r hr hk hst hp =>
    refine key r hr (fun q hq => by simp [far, upd_ne _ _ hq]) ?_
    simp [far, upd_same, hst]
  | send r hr hst hcan =>
    refine key r hr (fun q hq => by simp [far, upd_ne _ _ hq]) ?_
    simp [far, upd_same, hst]
  | recv r m rest hr hst hch =>
    refine key r hr (fun q hq => by simp [far, upd_ne _ _ hq]) ?_
    simp [far, upd_same, hst]
    omega

theorem Inv.far_le {s : Nat → S} {c : Conf S μ} (h : Inv net s c) :
    ∑ r ∈ Finset.range net.P, far c r ≤ 3 * net.K * net.P := by
  have : ∀ r ∈ Finset.range net.P, far c r ≤ 3 * net.K := by
    intro r hr
    have hr := Finset.mem_range.1 hr
    have h1 := h.le r hr
    have h2 := h.busy r hr
    unfold far
    cases e : c.sub r with
    | start => simp only; omega
    | posted => have := (h2 (by rw [e]; simp)).1; simp only; omega
    | sent => have := (h2 (by rw [e]; simp)).1; simp only; omega
  have := Finset.sum_le_card_nsmul _ _ _ this
  rw [Finset.card_range] at this
  exact this.trans (le_of_eq (Nat.mul_comm _ _))

/-- No deadlock: if a rank has not finished, some rank can take a step, even when sends wait for the
matching receive. -/
theorem Inv.progress (hm : net.Matched) {can : Conf S μ → Nat → Prop}
    (hcan : ∀ c r, net.Ready c r → can c r) {s : Nat → S} {c : Conf S μ} (h : Inv net s c)
    (hex : ∃ r, r < net.P ∧ c.pc r < net.K) : ∃ c', net.Step can c c' := by
  classical
  have hex' : ∃ k, ∃ r, r < net.P ∧ c.pc r < net.K ∧ c.pc r = k := by
    obtain ⟨r, h1, h2⟩ := hex
    exact ⟨_, r, h1, h2, rfl⟩
  obtain ⟨r, hr, hk, hrk⟩ := Nat.find_spec hex'
  have hmin : ∀ q, q < net.P → c.pc r ≤ c.pc q := by
    intro q hq
    by_contra hc
    exact Nat.find_min hex' (m := c.pc q) (by omega) ⟨q, hq, by omega, rfl⟩
  have begin : ∀ q, q < net.P → c.pc q < net.K → c.sub q = .start → ∃ c', net.Step can c c' := by
    intro q hq hqk hst
    cases hp : net.part (c.pc q) q with
    | false => exact ⟨_, Step.skip c q hq hqk hst hp⟩
    | true => exact ⟨_, Step.post c q hq hqk hst hp⟩
  cases hst : c.sub r with
  | start => exact begin r hr hk hst
  | posted =>
    obtain ⟨-, hp⟩ := h.busy r hr (by rw [hst]; simp)
    obtain ⟨hy, hyp, hys⟩ := hm.dst _ r hk hr hp
    have hle : c.pc (net.dst (c.pc r) r) = c.pc r := by
      have h1 := hmin _ hy
      by_contra hc
      have := h.past r _ (c.pc r) hr hy (by omega) hp rfl
      simp [done, hst] at this
    by_cases hys' : c.sub (net.dst (c.pc r) r) = .start
    · exact begin _ hy (by omega) hys'
    · exact ⟨_, Step.send c r hr hst (hcan c r ⟨hle, hys'⟩)⟩
  | sent =>
    obtain ⟨-, hp⟩ := h.busy r hr (by rw [hst]; simp)
    obtain ⟨hx, hxp, hxd⟩ := hm.src _ r hk hr hp
    by_cases hlt : c.pc r < done c (net.src (c.pc r) r)
    · have hq := h.ch _ r hx hr
      rw [msgs_cons hlt hxp hxd] at hq
      exact ⟨_, Step.recv c r _ _ hr hst hq⟩
    · have h1 := hmin _ hx
      have hns : c.sub (net.src (c.pc r) r) ≠ .sent := by
        intro e
        simp [done, e] at hlt
        omega
      have hpc : c.pc (net.src (c.pc r) r) = c.pc r := by
        simp [done, hns] at hlt
        omega
      cases hsx : c.sub (net.src (c.pc r) r) with
      | start => exact begin _ hx (by omega) hsx
      | sent => exact absurd hsx hns
      | posted =>
        refine ⟨_, Step.send c _ hx hsx (hcan c _ ?_)⟩
        unfold Ready
        rw [hpc, hxd]
        exact ⟨rfl, by rw [hst]; simp⟩

theorem Reach.inv (hm : net.Matched) {can : Conf S μ → Nat → Prop} {s : Nat → S} {n : Nat}
    {c : Conf S μ} (h : net.Reach can s n c) :
    Inv net s c ∧ n ≤ ∑ r ∈ Finset.range net.P, far c r := by
  induction h with
  | zero => exact ⟨inv_init s, Nat.zero_le _⟩
  | succ _ hs ih => exact ⟨ih.1.step hm hs, by have := hs.far_lt; omega⟩

/-- Every execution, in every interleaving and for every decision of the MPI library on when sends
complete (it must let a send complete whose receive is posted): it has at most `3 K P` steps, and
where no step is possible, all ranks have finished, with the states of the phase by phase computation,
and no message is left. -/
theorem Reach.correct (hm : net.Matched) {can : Conf S μ → Nat → Prop}
    (hcan : ∀ c r, net.Ready c r → can c r) {s : Nat → S} {n : Nat} {c : Conf S μ}
    (h : net.Reach can s n c) :
    n ≤ 3 * net.K * net.P ∧
    ((¬ ∃ c', net.Step can c c') → ∀ r, r < net.P → c.pc r = net.K ∧ c.st r = net.sync s net.K r ∧
      ∀ x, x < net.P → c.ch x r = []) := by
  obtain ⟨hi, hn⟩ := h.inv hm
  refine ⟨hn.trans hi.far_le, fun hstuck => ?_⟩
  have hall : ∀ r, r < net.P → c.pc r = net.K := by
    intro r hr
    by_contra hc
    have := hi.le r hr
    exact hstuck (hi.progress hm hcan ⟨r, hr, by omega⟩)
  have hsub : ∀ r, r < net.P → c.sub r = .start := by
    intro r hr
    by_contra hc
    have := (hi.busy r hr hc).1
    have := hall r hr
    omega
  intro r hr
  refine ⟨hall r hr, ?_, ?_⟩
  · rw [hi.st r hr, if_pos (hsub r hr), hall r hr]
  · intro x hx
    rw [hi.ch x r hx hr, hall r hr]
    refine msgs_empty ?_
    simp [done, hsub x hx, hall x hx]

/-- There is an execution that runs to the end. -/
theorem exists_final (hm : net.Matched) {can : Conf S μ → Nat → Prop}
    (hcan : ∀ c r, net.Ready c r → can c r) (s : Nat → S) :
    ∃ n c, net.Reach can s n c ∧ ¬ ∃ c', net.Step can c c' := by
  by_contra hno
  have hstep : ∀ n, ∃ c, net.Reach can s n c := by
    intro n
    induction n with
    | zero => exact ⟨_, Reach.zero⟩
    | succ n ih =>
      obtain ⟨c, hc⟩ := ih
      by_contra hn
      exact hno ⟨n, c, hc, fun ⟨c', hs⟩ => hn ⟨c', hc.succ hs⟩⟩
  obtain ⟨c, hc⟩ := hstep (3 * net.K * net.P + 1)
  have := (Reach.correct hm hcan hc).1
  omega

end Net

end Bml.Dist
