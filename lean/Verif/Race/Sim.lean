import Verif.Race.Basic

/-!
# Programs that follow a model

`Tr own ro p m r P`: if the model's computation `r` ends normally with `b`, then the program `p`, run
from memory `m`, keeps to its locations and ends with a result and a memory related to `b` by `P`.
-/

namespace Bml
namespace Race

variable {Loc : Type} [DecidableEq Loc] {ty : Loc → Type} {α β γ δ σ τ : Type}

/-- See above. -/
def Tr (own ro : Loc → Prop) (p : Prog ty α) (m : Mem ty) (r : Res β) (P : α → Mem ty → β → Prop) : Prop :=
  ∀ b, r = .ok b → p.wp own ro m fun a m' => P a m' b

variable {own ro : Loc → Prop} {m : Mem ty}

omit [DecidableEq Loc] in
theorem ok_bind {r : Res β} {g : β → Res γ} {c : γ} (h : (r >>= g) = .ok c) :
    ∃ b, r = .ok b ∧ g b = .ok c := by
  cases r with
  | ok b => exact ⟨b, rfl, h⟩
  | error => cases h
  | ub => cases h

theorem tr_bind {p : Prog ty α} {f : α → Prog ty γ} {r : Res β} {g : β → Res δ}
    (P : α → Mem ty → β → Prop) {P' : γ → Mem ty → δ → Prop} (h : Tr own ro p m r P)
    (h' : ∀ a m' b, r = .ok b → P a m' b → Tr own ro (f a) m' (g b) P') :
    Tr own ro (p >>= f) m (r >>= g) P' := by
  intro c hc
  obtain ⟨b, hb, hg⟩ := ok_bind hc
  show (Prog.bind p f).wp _ _ _ _
  rw [Prog.wp_bind]
  exact Prog.wp_mono (h b hb) fun a m' ha => h' a m' b hb ha c hg

theorem tr_pure {a : α} {b : β} {P : α → Mem ty → β → Prop} (h : P a m b) :
    Tr own ro (pure a) m (pure b) P := by
  intro c hc
  cases hc
  exact h

theorem tr_lift {r : Res α} {P : α → Mem ty → α → Prop} (h : ∀ a, r = .ok a → P a m a) :
    Tr own ro (Prog.lift r) m r P := by
  intro b hb
  rw [Prog.wp_lift, hb]
  exact h b hb

theorem tr_ite {c : Prop} [Decidable c] {p q : Prog ty α} {r s : Res β} {P : α → Mem ty → β → Prop}
    (h : c → Tr own ro p m r P) (h' : ¬ c → Tr own ro q m s P) :
    Tr own ro (if c then p else q) m (if c then r else s) P := by
  by_cases e : c
  · rw [if_pos e, if_pos e]
    exact h e
  · rw [if_neg e, if_neg e]
    exact h' e

/-- Loops; `μ` does not decrease and ends at most at `c`. -/
theorem tr_loop_le {n : Nat} {s : σ} {t : τ} {f : Nat → σ → Prog ty σ} {g : Nat → τ → Res τ}
    (I : Nat → σ → Mem ty → τ → Prop) (μ : τ → Nat) (c : Nat)
    (hμ : ∀ k t t', g k t = .ok t' → μ t ≤ μ t') (h0 : I 0 s m t)
    (hs : ∀ k, k < n → ∀ s m t t', I k s m t → g k t = .ok t' → μ t' ≤ c →
      (f k s).wp own ro m fun s' m' => I (k + 1) s' m' t') (b : τ) (hb : loop n t g = .ok b)
    (hc : μ b ≤ c) : (Prog.loop n s f).wp own ro m fun s' m' => I n s' m' b := by
  induction n generalizing b with
  | zero =>
    cases hb
    exact h0
  | succ n ih =>
    obtain ⟨t1, h1, h2⟩ := ok_bind (show (loop n t g >>= g n) = .ok b from hb)
    show ((Prog.loop n s f).bind (f n)).wp _ _ _ _
    rw [Prog.wp_bind]
    refine Prog.wp_mono (ih (fun k hk => hs k (by omega)) t1 h1 (le_trans (hμ n t1 b h2) hc)) ?_
    intro s' m' hI
    exact hs n (by omega) s' m' t1 b hI h2 hc

theorem tr_loop {n : Nat} {s : σ} {t : τ} {f : Nat → σ → Prog ty σ} {g : Nat → τ → Res τ}
    (I : Nat → σ → Mem ty → τ → Prop) (h0 : I 0 s m t)
    (hs : ∀ k, k < n → ∀ s m t, I k s m t → Tr own ro (f k s) m (g k t) (I (k + 1))) :
    Tr own ro (Prog.loop n s f) m (loop n t g) (I n) := fun b hb =>
  tr_loop_le I (fun _ => 0) 0 (fun _ _ _ _ => le_refl _) h0
    (fun k hk s m t t' hI ht _ => hs k hk s m t hI t' ht) b hb (le_refl _)

end Race
end Bml
