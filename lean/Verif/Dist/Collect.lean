import Verif.Basic

/-!
# One rank collects messages from all others

Rank 0 receives from rank 1, then from rank 2, and so on (`MPI_Recv` with a given source); every other
rank sends once (`MPI_Send`).  As in `Dist/Async.lean`, every rank runs at its own speed, and it is the
choice of the MPI library whether a send waits for its receive.
-/

namespace Bml.Dist

/-- The program: `pay r` is the message of rank `r`, `fin r s m` what rank 0 does with the message `m`
from rank `r` when its state is `s`. -/
structure Coll (S μ : Type) where
  P : Nat
  pay : Nat → μ
  fin : Nat → S → μ → S

/-- A global state: the rank that rank 0 receives from next, the state of rank 0, which ranks have
sent, and the messages under way. -/
structure CConf (S μ : Type) where
  next : Nat
  st : S
  sent : Nat → Bool
  ch : Nat → List μ

namespace Coll

variable {S μ : Type} (net : Coll S μ)

/-- The start: nothing sent. -/
def init (s : S) : CConf S μ := ⟨1, s, fun _ => false, fun _ => []⟩

/-- Rank 0 waits for the message of rank `r`. -/
def Ready (c : CConf S μ) (r : Nat) : Prop := c.next = r

/-- One step of one rank.  `can c r` says that the MPI library lets rank `r` complete its send. -/
inductive Step (can : CConf S μ → Nat → Prop) : CConf S μ → CConf S μ → Prop
  | send (c : CConf S μ) (r : Nat) : 0 < r → r < net.P → c.sent r = false → can c r →
      Step can c { c with sent := upd c.sent r true, ch := upd c.ch r (c.ch r ++ [net.pay r]) }
  | recv (c : CConf S μ) (m : μ) (rest : List μ) : c.next < net.P → c.ch c.next = m :: rest →
      Step can c { c with
        next := c.next + 1
        st := net.fin c.next c.st m
        ch := upd c.ch c.next rest }

/-- Reached in `n` steps. -/
inductive Reach (can : CConf S μ → Nat → Prop) (s : S) : Nat → CConf S μ → Prop
  | zero : Reach can s 0 (init s)
  | succ {n : Nat} {c c' : CConf S μ} : Reach can s n c → net.Step can c c' → Reach can s (n + 1) c'

/-- The state of rank 0 after `k` messages. -/
def after (s : S) : Nat → S
  | 0 => s
  | k + 1 => net.fin (k + 1) (after s k) (net.pay (k + 1))

/-- How many of the ranks from 1 to below `P` have sent. -/
def count (sent : Nat → Bool) : Nat → Nat
  | 0 => 0
  | P + 1 => count sent P + if 0 < P ∧ sent P = true then 1 else 0

theorem count_le (sent : Nat → Bool) (P : Nat) : count sent P ≤ P - 1 := by
  induction P with
  | zero => exact Nat.le_refl _
  | succ P ih =>
    unfold count
    split <;> omega

theorem count_congr {s t : Nat → Bool} {P : Nat} (h : ∀ r, r < P → s r = t r) : count s P = count t P := by
  induction P with
  | zero => rfl
  | succ P ih =>
    unfold count
    rw [ih fun r hr => h r (by omega), h P (by omega)]

theorem count_upd {s : Nat → Bool} {P r : Nat} (h0 : 0 < r) (hr : r < P) (hs : s r = false) :
    count (upd s r true) P = count s P + 1 := by
  induction P with
  | zero => omega
  | succ P ih =>
    unfold count
    by_cases h : r = P
    · subst h
      rw [count_congr (t := s) fun q hq => upd_ne _ _ (by omega), upd_same, if_pos ⟨h0, rfl⟩,
        if_neg (by rw [hs]; simp)]
    · rw [ih (by omega), upd_ne _ _ (fun e => h e.symm)]
      omega

/-- What holds in every reachable state. -/
structure Inv (s : S) (n : Nat) (c : CConf S μ) : Prop where
  next : 1 ≤ c.next
  top : c.next ≤ max net.P 1
  st : c.st = net.after s (c.next - 1)
  low : ∀ r, 0 < r → r < c.next → c.sent r = true
  ch : ∀ r, 0 < r → r < net.P → c.ch r = if c.sent r = true ∧ c.next ≤ r then [net.pay r] else []
  steps : n = count c.sent net.P + (c.next - 1)

variable {net}

theorem Reach.inv {can : CConf S μ → Nat → Prop} {s : S} {n : Nat} {c : CConf S μ}
    (h : net.Reach can s n c) : net.Inv s n c := by
  induction h with
  | zero =>
    refine ⟨Nat.le_refl _, Nat.le_max_right _ _, rfl, fun r h1 h2 => ?_, fun r _ _ => ?_, ?_⟩
    · exact absurd h2 (by simp [init]; omega)
    · rw [if_neg (by simp [init])]; rfl
    · have : ∀ P, count (init (μ := μ) s).sent P = 0 := fun P => by
        induction P with
        | zero => rfl
        | succ P ih => unfold count; rw [ih, if_neg (by simp [init])]
      rw [this]; rfl
  | @succ n c c' h hs ih =>
    cases hs with
    | send r h0 hr hf hc =>
      have hn : ¬ r < c.next := fun h => by rw [ih.low r h0 h] at hf; cases hf
      refine ⟨ih.next, ih.top, ih.st, fun q h1 h2 => ?_, fun q h1 h2 => ?_, ?_⟩
      · show upd _ _ _ _ = _
        by_cases h : q = r
        · subst h; rw [upd_same]
        · rw [upd_ne _ _ h]; exact ih.low q h1 h2
      · show upd c.ch r _ q = if upd c.sent r true q = true ∧ c.next ≤ q then [net.pay q] else []
        by_cases h : q = r
        · subst h
          rw [upd_same, upd_same, ih.ch q h1 h2, if_neg (by rw [hf]; simp), if_pos ⟨rfl, by omega⟩]
          rfl
        · rw [upd_ne _ _ h, upd_ne _ _ h]; exact ih.ch q h1 h2
      · show n + 1 = count (upd c.sent r true) net.P + (c.next - 1)
        rw [count_upd h0 hr hf, ih.steps]
        omega
    | recv m rest hP he =>
      have hn := ih.next
      have hch := ih.ch c.next (by omega) hP
      rw [he] at hch
      have hsent : c.sent c.next = true := by
        by_contra h
        rw [if_neg (fun hh => h hh.1)] at hch
        cases hch
      rw [if_pos ⟨hsent, Nat.le_refl _⟩] at hch
      injection hch with hm hr
      refine ⟨Nat.le_succ_of_le hn, ?_, ?_, fun q h1 h2 => ?_, fun q h1 h2 => ?_, ?_⟩
      · show c.next + 1 ≤ max net.P 1
        omega
      · show net.fin c.next c.st m = net.after s c.next
        obtain ⟨k, hk⟩ : ∃ k, c.next = k + 1 := ⟨c.next - 1, by omega⟩
        rw [hm, ih.st, hk]
        rfl
      · have h2' : q < c.next + 1 := h2
        by_cases h : q = c.next
        · rw [h]; exact hsent
        · exact ih.low q h1 (by omega)
      · show upd _ _ _ _ = if _ ∧ c.next + 1 ≤ q then _ else _
        by_cases h : q = c.next
        · subst h
          rw [upd_same, if_neg (by omega), hr]
        · rw [upd_ne _ _ h, ih.ch q h1 h2]
          by_cases h3 : c.sent q = true ∧ c.next ≤ q
          · rw [if_pos h3, if_pos ⟨h3.1, by omega⟩]
          · rw [if_neg h3, if_neg fun h4 => h3 ⟨h4.1, by omega⟩]
      · show n + 1 = count c.sent net.P + (c.next + 1 - 1)
        rw [ih.steps]
        omega

/-- Every execution ends, none is stuck before rank 0 has all messages, and its state is then the one
that depends on nothing but the messages. -/
theorem Reach.correct {can : CConf S μ → Nat → Prop} (hcan : ∀ c r, Ready c r → can c r) {s : S}
    {n : Nat} {c : CConf S μ} (h : net.Reach can s n c) : n ≤ 2 * (net.P - 1) ∧
      ((¬ ∃ c', net.Step can c c') → net.P ≤ c.next ∧ c.st = net.after s (net.P - 1)) := by
  have hi := h.inv
  have hn := hi.next
  have ht := hi.top
  refine ⟨?_, fun hs => ?_⟩
  · have := count_le c.sent net.P
    rw [hi.steps]
    omega
  · have hP : net.P ≤ c.next := by
      by_contra hlt
      by_cases hsent : c.sent c.next = true
      · have := hi.ch c.next (by omega) (by omega)
        rw [if_pos ⟨hsent, Nat.le_refl _⟩] at this
        exact hs ⟨_, Step.recv c _ [] (by omega) this⟩
      · exact hs ⟨_, Step.send c c.next (by omega) (by omega) (by simpa using hsent) (hcan c _ rfl)⟩
    refine ⟨hP, hi.st.trans ?_⟩
    congr 1
    omega

/-- There is an execution that has ended. -/
theorem exists_final (net : Coll S μ) (can : CConf S μ → Nat → Prop) (hcan : ∀ c r, Ready c r → can c r) (s : S) :
    ∃ n c, net.Reach can s n c ∧ ¬ ∃ c', net.Step can c c' := by
  by_contra hno
  have key : ∀ n, ∃ c, net.Reach can s n c := by
    intro n
    induction n with
    | zero => exact ⟨_, Reach.zero⟩
    | succ n ih =>
      obtain ⟨c, h⟩ := ih
      by_contra h'
      exact hno ⟨n, c, h, fun ⟨c', hs⟩ => h' ⟨c', Reach.succ h hs⟩⟩
  obtain ⟨c, h⟩ := key (2 * (net.P - 1) + 1)
  have := (h.correct hcan).1
  omega

end Coll

end Bml.Dist
