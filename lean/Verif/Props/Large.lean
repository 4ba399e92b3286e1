import Verif.Large
import Verif.Props.EllConstruct
import Verif.Props.Dense
import Verif.Ellpack.Stored

/-!
# Property theorems: matrices with more than `2^31 - 1` elements (C68)

`p` is the number of ranks.  A matrix is constructed together with its two domains; `…Int` are the
element functions with addresses computed in `int`.
-/

namespace Bml.Props

open Bml

variable {R : Type} [CommRing R]

/-! ## Construction -/

/-- **C68 (partial)**, ELLPACK, sequential mode: a matrix with at most `2^31 - 1` slots is constructed. -/
theorem C68_ellpack_partial {N M p : Nat} (hN : N * M ≤ INT_MAX) (junk : Nat → Nat) (cd : Nat) :
    ∃ (A : Ell R) (d d2 : Domain), Ell.zeroWithDomains N M p .sequential junk cd = .ok (A, d, d2) ∧
      A.M = M ∧ A.Represents N Spec.zero ∧ ∀ i, i < p → d.elements.get i = N * M := by
  obtain ⟨d, e, _, h⟩ := Res.wp_exists (Domain.wp_sequential (E := False) (p := p) (intArith_fits hN) junk cd)
  refine ⟨Ell.zeroMatrix N M, d, d, ?_, rfl, Ell.represents_iff.2 (Ell.zero_rep N M), fun i hi => (h i hi).2.2.2.1⟩
  unfold Ell.zeroWithDomains withDomains Domain.default
  rw [Res.bind_ok, e, Res.bind_ok, Res.bind_ok]
  rfl

/-- **C68 fails**: with more slots the constructor has undefined behaviour, even if there is memory for
the matrix. -/
theorem C68_ellpack_overflow {N M p : Nat} (hp : 0 < p) (hN : INT_MAX < N * M) (junk : Nat → Nat) (cd : Nat) :
    (Ell.zeroWithDomains N M p .sequential junk cd : Res (Ell R × Domain × Domain)) = .ub := by
  unfold Ell.zeroWithDomains withDomains
  rw [Res.bind_ok, Domain.sequential_ub hp hN]
  rfl

/-- **C68 (partial)**, dense, sequential mode. -/
theorem C68_dense_partial {N p : Nat} (hN : N ≤ 46340) (junk : Nat → Nat) (cd : Nat) :
    ∃ (A : Dense R) (d d2 : Domain), Dense.zeroWithDomains N p .sequential junk cd = .ok (A, d, d2) ∧
      A.Represents N Spec.zero := by
  have hN' : N * N ≤ INT_MAX := le_trans (Nat.mul_le_mul hN hN) (by decide)
  obtain ⟨d, e, _, h⟩ := Res.wp_exists (Domain.wp_sequential (E := False) (p := p) (intArith_fits hN') junk cd)
  refine ⟨Dense.zeroMatrix N, d, d, ?_, C32_dense_zero N⟩
  unfold Dense.zeroWithDomains withDomains Domain.default
  rw [Res.bind_ok, e, Res.bind_ok, Res.bind_ok]
  rfl

/-- **C68 fails**: dense matrices of dimension 46341 or more cannot be constructed. -/
theorem C68_dense_overflow {N p : Nat} (hp : 0 < p) (hN : 46340 < N) (junk : Nat → Nat) (cd : Nat) :
    (Dense.zeroWithDomains N p .sequential junk cd : Res (Dense R × Domain × Domain)) = .ub := by
  unfold Dense.zeroWithDomains withDomains
  have h : 46341 * 46341 ≤ N * N := Nat.mul_le_mul hN hN
  rw [Res.bind_ok, Domain.sequential_ub hp (lt_of_lt_of_le (by decide) h)]
  rfl

/-- **C68 fails**, distributed mode: the rows before those of the last rank must have at most `2^31 - 1`
slots, although no rank needs them. -/
theorem C68_distributed_overflow {N M p : Nat} (hp : 0 < p) (hN : INT_MAX < (N - N / p) * M)
    (junk : Nat → Nat) (cd : Nat) (x : Ell R × Domain × Domain) :
    Ell.zeroWithDomains N M p .distributed junk cd ≠ .ok x := by
  intro h
  unfold Ell.zeroWithDomains withDomains at h
  rw [Res.bind_ok] at h
  cases hd : Domain.default N M p .distributed junk cd with
  | ok d =>
    have := Domain.distributed_bound hp hd
    omega
  | error => rw [hd] at h; exact nomatch h
  | ub => rw [hd] at h; exact nomatch h

/-- 32 ranks with 2^27 slots each. -/
example (x : Ell Int × Domain × Domain) :
    Ell.zeroWithDomains (2 ^ 20) (2 ^ 12) 32 .distributed (fun _ => 0) 0 ≠ .ok x :=
  C68_distributed_overflow (by decide) (by decide) _ _ x

example : ∃ (A : Ell Int) (d d2 : Domain),
    Ell.zeroWithDomains (2 ^ 20) 2047 4 .sequential (fun _ => 0) 0 = .ok (A, d, d2) ∧
      A.M = 2047 ∧ A.Represents (2 ^ 20) Spec.zero ∧ ∀ i, i < 4 → d.elements.get i = 2 ^ 20 * 2047 :=
  C68_ellpack_partial (by decide) _ _

example : (Ell.zeroWithDomains (2 ^ 20) 2048 1 .sequential (fun _ => 0) 0 :
    Res (Ell Int × Domain × Domain)) = .ub := C68_ellpack_overflow (by decide) (by decide) _ _

/-! ## Element access -/

/-- **C68 (partial)**, ELLPACK: if the slots can be counted in an `int`, the element functions with
`int` addresses do the same as those with unbounded addresses, for every index; so the other theorems
hold for them. -/
theorem C68_ellpack_get_partial {A : Ell R} {N : Nat} {a : Spec.Mat R} (hA : A.Represents N a)
    (hN : N * A.M ≤ INT_MAX) (i j : Int) : A.getElementInt i j = A.getElement i j :=
  Ell.getElementInt_eq hA hN i j

/-- **C68 (partial)**, `bml_set_element`. -/
theorem C68_ellpack_set_partial {A : Ell R} {N : Nat} {a : Spec.Mat R} (hA : A.Represents N a)
    (hN : N * A.M ≤ INT_MAX) {i : Nat} (hi : i < N) (j : Nat) (v : R) :
    A.setElementInt i j v = A.setElement i j v := Ell.setElementInt_eq hA hN hi j v

/-- **C68 (partial)**, dense. -/
theorem C68_dense_get_partial {A : Dense R} {N : Nat} {a : Spec.Mat R} (hA : A.Represents N a) (hN : N ≤ 46340)
    {i j : Nat} (hi : i < N) (hj : j < N) : A.getElementInt i j = .ok (a i j) := by
  have h1 : i * N + j ≤ INT_MAX := by
    have h2 : (i + 1) * N ≤ 46340 * 46340 := Nat.mul_le_mul (le_trans hi hN) hN
    rw [Nat.succ_mul] at h2
    unfold INT_MAX
    omega
  have hr := Dense.represents_iff.1 hA
  unfold Dense.getElementInt
  rw [hr.dim, rowmajorInt_ok h1, Res.bind_ok, Arr.read_ok (by rw [hr.size]; exact addr_lt hi hj), hr.get i j hi hj]

/-- **C68 (partial)**, dense: an element which is set is read back, and no other element changes. -/
theorem C68_dense_set_partial {A : Dense R} {N : Nat} {a : Spec.Mat R} (hA : A.Represents N a) (hN : N ≤ 46340)
    {i j : Nat} (hi : i < N) (hj : j < N) (v : R) :
    ∃ B, A.setElementInt i j v = .ok B ∧ B.Represents N (Spec.set a i j v) := by
  have h1 : i * N + j ≤ INT_MAX := by
    have h2 : (i + 1) * N ≤ 46340 * 46340 := Nat.mul_le_mul (le_trans hi hN) hN
    rw [Nat.succ_mul] at h2
    unfold INT_MAX
    omega
  have hr := Dense.represents_iff.1 hA
  have e : A.setElementInt i j v = A.setElement i j v := by
    unfold Dense.setElementInt Dense.setElement Dense.writeInt
    have e1 : ((i : Int) * (A.N : Int) + (j : Int)) = ((i * N + j : Nat) : Int) := by rw [hr.dim]; push_cast; rfl
    rw [e1, if_neg (by omega), Int.toNat_natCast, hr.dim, rowmajorInt_ok h1, Res.bind_ok]
  obtain ⟨B, e2, h2⟩ := C03_history [(i, j, v)] hA (by simp [hi, hj])
  rw [forList_cons] at e2
  cases he : A.setElement i j v with
  | ok B' =>
    rw [he, Res.bind_ok] at e2
    injection e2 with e2
    exact ⟨B, by rw [e, he, e2], h2⟩
  | error => rw [he] at e2; exact nomatch e2
  | ub => rw [he] at e2; exact nomatch e2

/-- **C68 fails**: an element behind the first `2^31` slots cannot be read. -/
theorem C68_ellpack_get_overflow {A : Ell R} {N : Nat} {a : Spec.Mat R} (hA : A.Represents N a) {i j : Nat}
    (hi : i < N) (hj : j < N) (hN : INT_MAX < i * A.M) (hn : ∃ k, A.Stored i k) : A.getElementInt i j = .ub := by
  have hr := Ell.represents_iff.1 hA
  unfold Ell.getElementInt
  rw [if_neg (by rw [hr.dim]; omega), if_neg (by rw [hr.dim]; omega), Int.toNat_natCast, Int.toNat_natCast,
    Arr.read_ok (by rw [hr.shape.nnz_size, hr.dim]; exact hi), Res.bind_ok]
  obtain ⟨k, q, hq, -⟩ := hn
  obtain ⟨n, hn⟩ : ∃ n, A.nnz.get i = n + 1 := ⟨A.nnz.get i - 1, by omega⟩
  rw [hn]
  unfold Ell.findFromInt
  rw [rowmajorInt_ub (by omega)]
  rfl

/-- The matrix of `C68_late_failure`: three rows of `2^30 - 1` slots. -/
def exTall : Res (Ell Int) := do
  let x ← (Ell.zeroWithDomains 3 (2 ^ 30 - 1) 2 .distributed (fun _ => 0) 0 : Res (Ell Int × Domain × Domain))
  let A ← x.1.setElementInt 2 0 5
  A.setElementInt 2 1 6

/-- **C68 fails**: on two ranks in distributed mode, a matrix of three rows of `2^30 - 1` slots is
constructed, and two elements of its last row are set and read; the third element which is set has an
address of more than 31 bits. -/
theorem C68_late_failure :
    (do let A ← exTall
        let v ← A.getElementInt 2 1
        pure v) = .ok 6 ∧
    (do let A ← exTall
        A.setElementInt 2 2 7) = .ub :=
  ⟨by decide +kernel, Res.eq_ub_of_isUb (by decide +kernel)⟩

end Bml.Props
