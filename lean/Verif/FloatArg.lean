import Verif.Ellpack.Model2
import Verif.Csr.Model
import Verif.Ellblock.Model3
import Mathlib.Algebra.Order.Field.Rat
import Mathlib.Tactic.Ring
import Mathlib.Tactic.NormNum
import Mathlib.Tactic.FieldSimp

/-!
# How `bml_scale_add_identity` passes its factor

`bml_scale_add_identity_ellpack` (`bml_add_ellpack_typed.c` 562-573), `bml_scale_add_identity_csr`
(`bml_add_csr_typed.c` 185-196) and `bml_scale_add_identity_ellblock` (`bml_add_ellblock_typed.c`
383-394) have a parameter `double alpha` and call the scaling routine with `&alpha`.  The scaling
routine reads a `REAL_T` through that pointer.  Here the `double` is its bit pattern, and the read
is modelled on a little-endian machine with IEEE 754 numbers (x86-64, AArch64, POWER8 and later).
Reading an object through a pointer to another type is undefined in ISO C; the model follows what
the machine does if the compiler keeps the accesses, as in the separately compiled files here.
-/

namespace Bml
namespace FloatArg

/-- The value of an IEEE 754 number with `w` exponent bits and `p` fraction bits, given its bit
pattern; `none` for infinities and NaN. -/
def ieee (w p : Nat) (b : Nat) : Option Rat :=
  let s : Rat := if b / 2 ^ (w + p) % 2 = 1 then -1 else 1
  let e := b / 2 ^ p % 2 ^ w
  let f := b % 2 ^ p
  let bias : Int := 2 ^ (w - 1) - 1
  if e = 2 ^ w - 1 then none
  else if e = 0 then some (s * f * (2 : Rat) ^ (1 - bias - p))
  else some (s * (2 ^ p + f : Nat) * (2 : Rat) ^ ((e : Int) - bias - p))

/-- binary64, the C type `double`. -/
def double (b : Nat) : Option Rat := ieee 11 52 b

/-- binary32, the C type `float`. -/
def float (b : Nat) : Option Rat := ieee 8 23 b

/-- The precisions of `bml_matrix_precision_t` (`bml_types.h` 24-36). -/
inductive Prec
  | singleReal
  | doubleReal
  | singleComplex
  | doubleComplex
  deriving DecidableEq

/-- Reading a number of the element type through a pointer to the eight bytes of a `double`:
real and imaginary part (`none` for infinities and NaN).  A `float` is the low half of the bits.
A `float complex` takes both halves.  A `double complex` reaches past the end of the object. -/
def readArg (p : Prec) (b : Nat) : Res (Option Rat × Option Rat) :=
  match p with
  | .singleReal => .ok (float (b % 2 ^ 32), some 0)
  | .doubleReal => .ok (double b, some 0)
  | .singleComplex => .ok (float (b % 2 ^ 32), float (b / 2 ^ 32 % 2 ^ 32))
  | .doubleComplex => .ub

/-- The factor that reaches the elements of a matrix of real numbers.  Infinities and NaN are not
modelled further and are reported as an error here. -/
def realFactor (p : Prec) (b : Nat) : Res Rat :=
  match readArg p b with
  | .ok (some x, some _) => .ok x
  | .ok _ => .error
  | .error => .error
  | .ub => .ub

/-- `bml_scale_add_identity_ellpack` with the factor given as the `double` the caller passes.  The
matrix arithmetic is exact. -/
def ellScaleAddIdentity (p : Prec) (A : Ell Rat) (alpha : Nat) (β : Rat) (big : Rat → Bool)
    (lo hi : Nat) (sc : Sched) : Res (Ell Rat) := do
  let x ← realFactor p alpha
  Ell.scaleAddIdentity A x β big lo hi sc

/-- `bml_scale_add_identity_csr`, likewise. -/
def csrScaleAddIdentity (p : Prec) (A : Csr Rat) (alpha : Nat) (β : Rat) (big : Rat → Bool)
    (sc sc1 sc2 : Sched) : Res (Csr Rat) := do
  let x ← realFactor p alpha
  Csr.scaleAddIdentity A x β big sc sc1 sc2

/-- `bml_scale_add_identity_ellblock`, likewise. -/
def ellbScaleAddIdentity (p : Prec) (g : EllB.Glob) (sc : Sched) (nz big : Rat → Bool)
    (junk : Nat → Rat) (A : EllB Rat) (alpha : Nat) (β : Rat) : Res (EllB.Glob × EllB Rat) := do
  let x ← realFactor p alpha
  EllB.scaleAddIdentity g sc nz big junk A x β

end FloatArg
end Bml
