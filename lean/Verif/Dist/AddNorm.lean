import Verif.Dist.WrapProof

/-!
# `bml_add_norm` of distributed matrices
-/

namespace Bml
namespace Dist

variable {τ R : Type}

/-- `bml_add_norm_distributed2d`, `bml_add_distributed2d.c` 47-60: the local matrix of rank `r` and the
number it returns.  `f r` is `bml_add_norm` of the local format. -/
def addNorm [AddCommMonoid R] (f : Nat → τ → τ → Res (τ × R)) (p : Nat) (D E : Nat → τ) (r : Nat) :
    Res (τ × R) := do
  let s ← f r (D r) (E r)
  let t ← sumReduce (p * p) fun r => do
    let s ← f r (D r) (E r)
    pure s.2
  pure (s.1, t)

end Dist
end Bml
