import Verif.Round.Spec
import Mathlib.Data.Int.Log
import Mathlib.Data.Nat.Log
import Mathlib.Data.Real.Basic

/-!
# An arithmetic with rounding, for examples

Integers of which only about three leading bits are kept.
-/

namespace Bml

/-- Numbers of short arithmetic. -/
structure Short where
  val : Int
  deriving DecidableEq

namespace Short

/-- All but the three leading bits are dropped. -/
def cut (x : Int) : Int := x - x % (2 ^ (Nat.log2 x.natAbs - 2))

instance : Zero Short := ⟨⟨0⟩⟩
instance : One Short := ⟨⟨1⟩⟩
instance : Neg Short := ⟨fun x => ⟨-x.val⟩⟩
instance : Add Short :=
  ⟨fun x y => if x.val = 0 then y else if y.val = 0 then x else ⟨cut (x.val + y.val)⟩⟩
instance : Sub Short := ⟨fun x y => x + -y⟩
instance : Mul Short := ⟨fun x y => ⟨cut (x.val * y.val)⟩⟩

theorem cut_error (x : Int) : |((cut x : Int) : ℝ) - x| ≤ 1 / 4 * |(x : ℝ)| := by
  have h0 : ((cut x : Int) : ℝ) - x = -((x % (2 ^ (Nat.log2 x.natAbs - 2)) : Int) : ℝ) := by
    unfold cut; push_cast; ring
  rw [h0, abs_neg]
  have hpos : (0 : Int) < 2 ^ (Nat.log2 x.natAbs - 2) := by positivity
  have h1 := Int.emod_nonneg x hpos.ne'
  have h2 := Int.emod_lt_of_pos x hpos
  have h3 : 4 * (x % (2 ^ (Nat.log2 x.natAbs - 2))) ≤ |x| := by
    by_cases hk : Nat.log2 x.natAbs < 2
    · have : Nat.log2 x.natAbs - 2 = 0 := by omega
      rw [this, pow_zero, Int.emod_one]
      simp
    · have hx : x.natAbs ≠ 0 := by
        intro h
        rw [h] at hk
        exact hk (by decide)
      have h4 : 2 ^ Nat.log2 x.natAbs ≤ x.natAbs := by
        rw [Nat.log2_eq_log_two]
        exact Nat.pow_log_le_self 2 hx
      have h5 : (2 : Int) ^ Nat.log2 x.natAbs = 4 * 2 ^ (Nat.log2 x.natAbs - 2) := by
        rw [show Nat.log2 x.natAbs = (Nat.log2 x.natAbs - 2) + 2 by omega, pow_add]
        simp
        ring
      have h6 : ((2 : Int) ^ Nat.log2 x.natAbs) ≤ (x.natAbs : Int) := by exact_mod_cast h4
      rw [Int.abs_eq_natAbs]
      omega
  have h7 : ((4 * (x % (2 ^ (Nat.log2 x.natAbs - 2))) : Int) : ℝ) ≤ ((|x| : Int) : ℝ) := by
    exact_mod_cast h3
  rw [abs_of_nonneg (by exact_mod_cast h1)]
  push_cast at h7 ⊢
  linarith

/-- Short arithmetic is a floating-point arithmetic with unit roundoff one fourth. -/
theorem rounds : Spec.Rounds (fun x : Short => (x.val : ℝ)) (1 / 4) where
  unit := by norm_num
  zero := by show ((0 : Int) : ℝ) = 0; simp
  zero_add x y h := by
    have : x.val = 0 := by exact_mod_cast h
    show ((if x.val = 0 then y else _ : Short).val : ℝ) = _
    rw [if_pos this]
  add_zero x y h := by
    have : y.val = 0 := by exact_mod_cast h
    show ((if x.val = 0 then y else if y.val = 0 then x else _ : Short).val : ℝ) = _
    by_cases hx : x.val = 0
    · rw [if_pos hx, hx, this]
    · rw [if_neg hx, if_pos this]
  add x y := by
    show ‖((if x.val = 0 then y else if y.val = 0 then x else _ : Short).val : ℝ) - _‖ ≤ _
    by_cases hx : x.val = 0
    · rw [if_pos hx, hx]
      simp
    · by_cases hy : y.val = 0
      · rw [if_neg hx, if_pos hy, hy]
        simp
      · rw [if_neg hx, if_neg hy]
        have := cut_error (x.val + y.val)
        push_cast at this
        simpa [Real.norm_eq_abs] using this
  mul x y := by
    have := cut_error (x.val * y.val)
    push_cast at this
    show ‖((cut (x.val * y.val) : Int) : ℝ) - _‖ ≤ _
    simpa [Real.norm_eq_abs] using this

/-- It is not associative. -/
example : ((⟨7⟩ + ⟨1⟩ : Short) + ⟨1⟩) ≠ ⟨7⟩ + (⟨1⟩ + ⟨1⟩) ∨
    ((⟨8⟩ + ⟨1⟩ : Short) + ⟨1⟩) ≠ ⟨8⟩ + (⟨1⟩ + ⟨1⟩) := by decide +kernel

end Short

end Bml
