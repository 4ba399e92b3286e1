import Verif.Basic

/-!
# Partial correctness

`Res.wlp r Q`: if `r` is a normal result, it satisfies `Q`.  Used to show that a computation
cannot end normally.
-/

namespace Bml

/-- If `r` returns normally, its value satisfies `Q`. -/
def Res.wlp {α : Type _} (r : Res α) (Q : α → Prop) : Prop := ∀ a, r = .ok a → Q a

namespace Res

variable {α β : Type}

theorem wlp_bind {r : Res α} {f : α → Res β} {Q : β → Prop} :
    (r >>= f).wlp Q ↔ r.wlp (fun a => (f a).wlp Q) := by
  unfold wlp
  cases r with
  | ok a => simp
  | error => constructor <;> intro h <;> intro a ha <;> cases ha
  | ub => constructor <;> intro h <;> intro a ha <;> cases ha

theorem wlp_ok {a : α} {Q : α → Prop} : (Res.ok a).wlp Q ↔ Q a :=
  ⟨fun h => h a rfl, fun h b hb => by cases hb; exact h⟩

theorem wlp_ub {Q : α → Prop} : (Res.ub : Res α).wlp Q := fun _ h => by cases h

theorem wlp_error {Q : α → Prop} : (Res.error : Res α).wlp Q := fun _ h => by cases h

theorem wlp_mono {r : Res α} {P Q : α → Prop} (h : r.wlp P) (hPQ : ∀ a, P a → Q a) : r.wlp Q :=
  fun a ha => hPQ a (h a ha)

end Res

theorem wlp_loop {σ : Type} {n : Nat} {s : σ} {f : Nat → σ → Res σ} (I : Nat → σ → Prop)
    (h0 : I 0 s) (hs : ∀ k, k < n → ∀ s, I k s → (f k s).wlp (I (k + 1))) :
    (loop n s f).wlp (I n) := by
  induction n with
  | zero => exact Res.wlp_ok.2 h0
  | succ n ih =>
    unfold loop
    rw [Res.wlp_bind]
    exact Res.wlp_mono (ih (fun k hk => hs k (by omega))) (fun s hs' => hs n (by omega) s hs')

/-- Is the outcome undefined behaviour?  For types without decidable equality. -/
def Res.isUb {α : Type _} : Res α → Bool
  | .ub => true
  | _ => false

theorem Res.eq_ub_of_isUb {α : Type _} {r : Res α} (h : r.isUb = true) : r = .ub := by
  cases r <;> simp_all [Res.isUb]

/-- Is the outcome a normal result with the property `p`? -/
def Res.okAnd {α : Type _} (p : α → Bool) : Res α → Bool
  | .ok a => p a
  | _ => false

theorem Res.exists_okAnd {α : Type _} {r : Res α} {p : α → Bool} (h : r.okAnd p = true) :
    ∃ a, r = .ok a ∧ p a = true := by
  cases r with
  | ok a => exact ⟨a, rfl, h⟩
  | error => cases h
  | ub => cases h

end Bml
