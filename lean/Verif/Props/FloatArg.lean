import Verif.FloatArg
import Verif.Props.EllOps
import Verif.Props.Csr2
import Verif.Props.Ellblock3

/-! # C09: the factor of `bml_scale_add_identity` in each precision -/

namespace Bml.Props
open Bml FloatArg

/-- A normal `double` with at most 21 significant bits: sign `s`, biased exponent `e`, and the upper
20 bits `m` of its fraction. -/
def shortDouble (s e m : Nat) : Nat := 2 ^ 63 * s + 2 ^ 52 * e + 2 ^ 32 * m

/-- Its value is `± (1 + m/2^20) 2^(e-1023)`. -/
theorem shortDouble_value {s e m : Nat} (hs : s < 2) (he0 : 0 < e) (he : e < 2047)
    (hm : m < 2 ^ 20) :
    double (shortDouble s e m) =
      some ((-1) ^ s * (1 + (m : Rat) / 2 ^ 20) * (2 : Rat) ^ ((e : Int) - 1023)) := by
  have h1 : shortDouble s e m / 2 ^ 63 % 2 = s := by unfold shortDouble; omega
  have h2 : shortDouble s e m / 2 ^ 52 % 2 ^ 11 = e := by unfold shortDouble; omega
  have h3 : shortDouble s e m % 2 ^ 52 = m * 2 ^ 32 := by unfold shortDouble; omega
  have hsgn : (if s = 1 then (-1 : Rat) else 1) = (-1) ^ s := by
    rcases (by omega : s = 0 ∨ s = 1) with h | h <;> subst h <;> norm_num
  simp only [double, ieee]
  rw [show 11 + 52 = 63 from rfl, h1, h2, h3, if_neg (by norm_num; omega), if_neg (by omega), hsgn]
  congr 1
  have e1 : ((e : Int) - (2 ^ (11 - 1) - 1) - (52 : Nat)) = ((e : Int) - 1023) - 52 := by
    norm_num
  rw [e1, zpow_sub₀ (by norm_num : (2 : Rat) ≠ 0)]
  push_cast
  norm_num
  ring

/-- The matrix scaling code of a single precision matrix sees zero instead. -/
theorem shortDouble_single (s e m : Nat) : realFactor .singleReal (shortDouble s e m) = .ok 0 := by
  have h : shortDouble s e m % 2 ^ 32 = 0 := by unfold shortDouble; omega
  have h0 : float 0 = some 0 := by decide +kernel
  have h1 : readArg .singleReal (shortDouble s e m) = .ok (some 0, some 0) := by
    unfold readArg
    rw [h, h0]
  unfold realFactor
  rw [h1]

/-- In double precision the factor arrives unchanged, for every finite factor. -/
theorem C09_factor_double {b : Nat} {x : Rat} (h : double b = some x) :
    realFactor .doubleReal b = .ok x := by
  simp only [realFactor, readArg, h]

/-- `2.0`, `0.5`, `-3.0` and `1.0` as `double`s: all are short. -/
example : shortDouble 0 1024 0 = 0x4000000000000000 ∧ double 0x4000000000000000 = some 2 ∧
    double (shortDouble 0 1022 0) = some (1 / 2) ∧
    double (shortDouble 1 1024 (2 ^ 19)) = some (-3) ∧
    double (shortDouble 0 1023 0) = some 1 := by decide +kernel

/-- `0.1` is not short; a single precision matrix is then scaled by the `float` whose bits are
`0x9999999a`, about `-1.6e-23`. -/
example : ∃ x, double 0x3fb999999999999a = some x ∧ |x - 1 / 10| < 1 / 10 ^ 16 ∧
    ∃ y, realFactor .singleReal 0x3fb999999999999a = .ok y ∧ y < 0 ∧ |y| < 1 / 10 ^ 22 :=
  ⟨_, rfl, by decide +kernel, _, rfl, by decide +kernel, by decide +kernel⟩

/-- **C09**, double precision ELLPACK, from the bits of the factor: `alpha A + beta I`
thresholded. -/
theorem C09_ell_double {N : Nat} {A : Ell Rat} {a : Spec.Mat Rat} (hA : A.Represents N a)
    {b : Nat} {α : Rat} (hb : double b = some α) (β : Rat) (big : Rat → Bool) {sc : Sched}
    (hsc : IsSched 0 N sc)
    (hroom : ∀ i, i < N → β = 0 ∨ A.nnz.get i < A.M ∨ A.Stored i i) :
    ∃ A', ellScaleAddIdentity .doubleReal A b β big 0 N sc = .ok A' ∧ A'.M = A.M ∧
      A'.Represents N (Spec.addIdentity big β (Spec.scale α a)) := by
  unfold ellScaleAddIdentity
  rw [C09_factor_double hb, Res.bind_ok]
  exact C09_scale_add_identity_partial hA α β big hsc hroom

/-- **C09 fails in single precision**, ELLPACK: for every factor with at most 21 significant bits
(`2`, `0.5`, `-1`, every integer up to two million …) the matrix is lost, the result is `beta I`
thresholded. -/
theorem C09_ell_single {N : Nat} {A : Ell Rat} {a : Spec.Mat Rat} (hA : A.Represents N a)
    (s e m : Nat) (β : Rat) (big : Rat → Bool) {sc : Sched} (hsc : IsSched 0 N sc)
    (hroom : ∀ i, i < N → β = 0 ∨ A.nnz.get i < A.M ∨ A.Stored i i) :
    ∃ A', ellScaleAddIdentity .singleReal A (shortDouble s e m) β big 0 N sc = .ok A' ∧
      A'.M = A.M ∧ A'.Represents N (Spec.addIdentity big β Spec.zero) := by
  unfold ellScaleAddIdentity
  rw [shortDouble_single, Res.bind_ok]
  obtain ⟨A', h1, h2, h3⟩ := C09_scale_add_identity_partial hA 0 β big hsc hroom
  exact ⟨A', h1, h2, h3.congr fun i j _ _ => by
    simp [Spec.addIdentity, Spec.scale, Spec.zero]⟩

/-- **C09 fails in single precision**, CSR, likewise. -/
theorem C09_csr_single {N : Nat} {A : Csr Rat} {a : Spec.Mat Rat} (hA : A.Represents N a)
    (s e m : Nat) (β : Rat) (big : Rat → Bool) {sc sc1 sc2 : Sched} (hsc : IsSched 0 N sc)
    (hsc1 : IsSched 0 N sc1) (hsc2 : IsSched 0 N sc2) :
    ∃ A', csrScaleAddIdentity .singleReal A (shortDouble s e m) β big sc sc1 sc2 = .ok A' ∧
      A'.M = A.M ∧ A'.Represents N (Spec.addIdentity big β Spec.zero) := by
  unfold csrScaleAddIdentity
  rw [shortDouble_single, Res.bind_ok]
  obtain ⟨A', h1, h2, h3⟩ := C09_csr_scale_add_identity_partial hA 0 β big hsc hsc1 hsc2
  exact ⟨A', h1, h2, h3.congr fun i j _ _ => by
    simp [Spec.addIdentity, Spec.scale, Spec.zero]⟩

/-- **C09**, double precision CSR. -/
theorem C09_csr_double {N : Nat} {A : Csr Rat} {a : Spec.Mat Rat} (hA : A.Represents N a)
    {b : Nat} {α : Rat} (hb : double b = some α) (β : Rat) (big : Rat → Bool)
    {sc sc1 sc2 : Sched} (hsc : IsSched 0 N sc) (hsc1 : IsSched 0 N sc1)
    (hsc2 : IsSched 0 N sc2) :
    ∃ A', csrScaleAddIdentity .doubleReal A b β big sc sc1 sc2 = .ok A' ∧ A'.M = A.M ∧
      A'.Represents N (Spec.addIdentity big β (Spec.scale α a)) := by
  unfold csrScaleAddIdentity
  rw [C09_factor_double hb, Res.bind_ok]
  exact C09_csr_scale_add_identity_partial hA α β big hsc hsc1 hsc2

/-- **C09, C62 fail in single precision**, ELLBLOCK, likewise, if the result fits. -/
theorem C62_ellblock_single {N : Nat} {A : EllB Rat} {a : Spec.Mat Rat} (hA : A.Represents N a)
    (hN : 0 < N) {g : EllB.Glob} (hg : MadeUnder g N A) (hc : A.Clean) (s e m : Nat) {sc : Sched}
    (hsc : IsSched 0 A.NB sc) {nz big : Rat → Bool} (hnz : ∀ c, nz c = false → c = 0)
    (hbig : ∀ c, big c = false → c = 0) (junk : Nat → Rat) (β : Rat)
    (hfit : EllB.BlocksFit big A.bsize.get A.NB A.MB (fun i j => β * Spec.one i j))
    (hu : ∃ s, ∀ ib, ib < A.NB → A.bsize.get ib = s) :
    ∃ A', ellbScaleAddIdentity .singleReal g sc nz big junk A (shortDouble s e m) β = .ok (g, A') ∧
      A'.Represents N (fun i j => β * Spec.one i j) := by
  unfold ellbScaleAddIdentity
  rw [shortDouble_single, Res.bind_ok]
  have e0 : (fun i j => (0 : Rat) * a i j + β * Spec.one i j) = fun i j => β * Spec.one i j := by
    funext i j; rw [zero_mul, zero_add]
  obtain ⟨A', h1, -, -, h2⟩ := C62_scale_add_identity_exact_partial hA hN hg hc hsc hnz hbig junk 0 β
    (by rw [e0]; exact hfit) (Or.inl hu)
  rw [e0] at h2
  exact ⟨A', h1, h2⟩

/-- In double-complex precision the read goes past the end of the argument, for every factor. -/
theorem C09_double_complex (A : Ell Rat) (b : Nat) (β : Rat) (big : Rat → Bool) (lo hi : Nat)
    (sc : Sched) : ellScaleAddIdentity .doubleComplex A b β big lo hi sc = .ub := rfl

/-- A single-complex matrix is scaled by a complex number with imaginary part `2.0` (real part 0)
when the caller asks for the real factor `2.0`. -/
theorem C09_single_complex : readArg .singleComplex (shortDouble 0 1024 0) = .ok (some 0, some 2) := by
  have h1 : shortDouble 0 1024 0 % 2 ^ 32 = 0 := by decide
  have h2 : shortDouble 0 1024 0 / 2 ^ 32 % 2 ^ 32 = 0x40000000 := by decide
  have h3 : float 0 = some 0 := by decide +kernel
  have h4 : float 0x40000000 = some 2 := by decide +kernel
  simp only [readArg, h1, h2, h3, h4]

/-- A diagonal single-precision matrix `7 I` doubled: `3 I` instead of `17 I` for `beta = 3`. -/
example : ∃ A', ellScaleAddIdentity .singleReal (Ell.ofRows 2 2 fun i => [(i, (7 : Rat))])
      (shortDouble 0 1024 0) 3 (fun x => decide (x ≠ 0)) 0 2 (seqSched 0 2) = .ok A' ∧
    A'.getElement 1 1 = .ok 3 := by
  obtain ⟨A', e, -, h⟩ := C09_ell_single (Ell.ofRows_rep (N := 2) (M := 2)
    (L := fun i => [(i, (7 : Rat))]) (by decide)) 0 1024 0 3 (fun x => decide (x ≠ 0))
    (isSched_seq 0 2) (by decide)
  exact ⟨A', e, (h.get 1 1 (by omega) (by omega)).trans (by decide +kernel)⟩

/-- In double precision the same call gives `17 I`. -/
example : ∃ A', ellScaleAddIdentity .doubleReal (Ell.ofRows 2 2 fun i => [(i, (7 : Rat))])
      (shortDouble 0 1024 0) 3 (fun x => decide (x ≠ 0)) 0 2 (seqSched 0 2) = .ok A' ∧
    A'.getElement 1 1 = .ok 17 := by
  obtain ⟨A', e, -, h⟩ := C09_ell_double (Ell.ofRows_rep (N := 2) (M := 2)
    (L := fun i => [(i, (7 : Rat))]) (by decide)) (b := shortDouble 0 1024 0) (α := 2)
    (by decide +kernel) 3 (fun x => decide (x ≠ 0))
    (isSched_seq 0 2) (by decide)
  exact ⟨A', e, (h.get 1 1 (by omega) (by omega)).trans (by decide +kernel)⟩

end Bml.Props
