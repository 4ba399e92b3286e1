import Verif.Spec
import Verif.Basic
import Mathlib.Data.Int.ModEq

/-!
# Process grids and tiles
-/

namespace Bml.Dist

/-- `MPI_Cart_coords` on the `p × p` periodic grid of
`src/C-interface/distributed2d/bml_allocate_distributed2d.c` 32-35 (no reordering): ranks are numbered
row by row. -/
def prow (p r : Nat) : Nat := r / p

@[inherit_doc prow] def pcol (p r : Nat) : Nat := r % p

/-- The rank at a place of the grid. -/
def rankOf (p i j : Nat) : Nat := i * p + j

/-- A coordinate moved by `d` on a ring of `p`. -/
def ring (p : Nat) (x : Nat) (d : Int) : Nat := (((x : Int) + d) % (p : Int)).toNat

/-- `MPI_Cart_shift(comm, dim, disp, &src, &dst)` on that grid: source and destination of rank `r`.
Dimension 0 is the row coordinate, dimension 1 the column coordinate. -/
def cartShift (p dim : Nat) (disp : Int) (r : Nat) : Nat × Nat :=
  if dim = 0 then
    (rankOf p (ring p (prow p r) (-disp)) (pcol p r), rankOf p (ring p (prow p r) disp) (pcol p r))
  else
    (rankOf p (prow p r) (ring p (pcol p r) (-disp)), rankOf p (prow p r) (ring p (pcol p r) disp))

theorem pcol_lt {p r : Nat} (h : r < p * p) : pcol p r < p := by
  refine Nat.mod_lt _ (Nat.pos_of_ne_zero ?_)
  rintro rfl
  omega

theorem prow_lt {p r : Nat} (h : r < p * p) : prow p r < p := Nat.div_lt_of_lt_mul h

theorem rankOf_lt {p i j : Nat} (hi : i < p) (hj : j < p) : rankOf p i j < p * p := by
  have := Nat.mul_le_mul_right p (Nat.succ_le_of_lt hi)
  rw [Nat.succ_mul] at this
  unfold rankOf
  omega

theorem prow_rankOf {p i j : Nat} (hj : j < p) : prow p (rankOf p i j) = i := by
  unfold prow rankOf
  rw [Nat.add_comm, Nat.mul_comm, Nat.add_mul_div_left _ _ (by omega), Nat.div_eq_of_lt hj, zero_add]

theorem pcol_rankOf {p i j : Nat} (hj : j < p) : pcol p (rankOf p i j) = j := by
  unfold pcol rankOf
  rw [Nat.add_comm, Nat.add_mul_mod_self_right, Nat.mod_eq_of_lt hj]

theorem rankOf_coords (p r : Nat) : rankOf p (prow p r) (pcol p r) = r := Nat.div_add_mod' r p

theorem ring_lt {p : Nat} (hp : 0 < p) (x : Nat) (d : Int) : ring p x d < p := by
  unfold ring
  have h1 := Int.emod_nonneg ((x : Int) + d) (b := (p : Int)) (by omega)
  have h2 := Int.emod_lt_of_pos ((x : Int) + d) (b := (p : Int)) (by omega)
  omega

theorem ring_add {p : Nat} (x d : Nat) : ring p x (d : Int) = (x + d) % p := by
  unfold ring
  rw [← Int.natCast_add, ← Int.natCast_emod, Int.toNat_natCast]

theorem ring_ring {p : Nat} (hp : 0 < p) {x : Nat} (hx : x < p) (d : Int) :
    ring p (ring p x d) (-d) = x := by
  have h1 := Int.emod_nonneg ((x : Int) + d) (b := (p : Int)) (by omega)
  unfold ring
  rw [Int.toNat_of_nonneg h1, ← Int.sub_eq_add_neg, Int.emod_sub_emod,
    show (x : Int) + d - d = x by omega, ← Int.natCast_emod, Int.toNat_natCast, Nat.mod_eq_of_lt hx]

theorem ring_ring' {p : Nat} (hp : 0 < p) {x : Nat} (hx : x < p) (d : Int) :
    ring p (ring p x (-d)) d = x := by
  have := ring_ring hp hx (-d)
  rwa [neg_neg] at this

/-- The tile at grid place `(i,j)` of a matrix cut into `n × n` tiles. -/
def tile {R : Type} (n i j : Nat) (a : Spec.Mat R) : Spec.Mat R := fun r s => a (i * n + r) (j * n + s)

/-- A distributed matrix, one local matrix per rank, holds the matrix `a`: each rank has its tile. -/
def Holds {τ R : Type} (Rep : τ → Spec.Mat R → Prop) (p n : Nat) (D : Nat → τ) (a : Spec.Mat R) : Prop :=
  ∀ i j, i < p → j < p → Rep (D (rankOf p i j)) (tile n i j a)

variable {R : Type}

theorem sum_tiles [AddCommMonoid R] (p n : Nat) (f : Nat → R) :
    ∑ l ∈ Finset.range (p * n), f l =
      ∑ t ∈ Finset.range p, ∑ s ∈ Finset.range n, f (t * n + s) := by
  induction p with
  | zero => simp
  | succ p ih =>
    rw [Nat.succ_mul, Finset.sum_range_add, ih, Finset.sum_range_succ]

theorem sum_ring [AddCommMonoid R] {p : Nat} (d : Nat) (f : Nat → R) :
    ∑ t ∈ Finset.range p, f ((d + t) % p) = ∑ l ∈ Finset.range p, f l := by
  rcases Nat.eq_zero_or_pos p with rfl | hp
  · simp
  refine Finset.sum_nbij (fun t => (d + t) % p) ?_ ?_ ?_ ?_
  · intro t _
    exact Finset.mem_range.2 (Nat.mod_lt _ hp)
  · intro t ht t' ht' e
    have ht := Finset.mem_range.1 (Finset.mem_coe.1 ht)
    have ht' := Finset.mem_range.1 (Finset.mem_coe.1 ht')
    have : t % p = t' % p := Nat.ModEq.add_left_cancel' d e
    rwa [Nat.mod_eq_of_lt ht, Nat.mod_eq_of_lt ht'] at this
  · intro l hl
    have hl := Finset.mem_range.1 (Finset.mem_coe.1 hl)
    refine ⟨(l + (p - d % p)) % p, Finset.mem_coe.2 (Finset.mem_range.2 (Nat.mod_lt _ hp)), ?_⟩
    show (d + (l + (p - d % p)) % p) % p = l
    have := Nat.mod_lt d hp
    rw [Nat.add_mod_mod, ← Nat.mod_add_mod, show d % p + (l + (p - d % p)) = l + p by omega, Nat.add_mod_right, Nat.mod_eq_of_lt hl]
  · intro t _; rfl

/-- A tile of the product is the sum of the products of tiles. -/
theorem tile_mul [NonUnitalNonAssocSemiring R] (p n i j : Nat) (a b : Spec.Mat R) (r s : Nat) :
    tile n i j (Spec.mul (p * n) a b) r s =
      ∑ l ∈ Finset.range p, Spec.mul n (tile n i l a) (tile n l j b) r s := by
  unfold tile Spec.mul
  exact sum_tiles p n _

end Bml.Dist
