import Verif.Common.DomainProof
import Verif.Wlp
import Verif.Ellpack.Model2
import Verif.Ellpack.Rep
import Verif.Dense.Rep

/-!
# Large matrices: the `int` arithmetic of constructors and of element addresses

The other models of a constructor leave out the two domains of a matrix, and compute the address of an
element with unbounded numbers.  Here both are as in the code.
-/

namespace Bml

variable {R : Type} [CommRing R]

/-- A constructor that ends with `A->domain = bml_default_domain(N, M, distrib_mode);
A->domain2 = …`: `bml_allocate_ellpack_typed.c` 162-163 and 230-231, `bml_allocate_dense_typed.c`
124-129 and 184-189. -/
def withDomains {α : Type} (r : Res α) (N M p : Nat) (mode : DistMode) (junk : Nat → Nat) (ceilDiv : Nat) :
    Res (α × Domain × Domain) := do
  let A ← r
  let d ← Domain.default N M p mode junk ceilDiv
  let d2 ← Domain.default N M p mode junk ceilDiv
  pure (A, d, d2)

/-- `bml_zero_matrix_ellpack`, `bml_allocate_ellpack_typed.c` 205-266, with its domains. -/
def Ell.zeroWithDomains (N M p : Nat) (mode : DistMode) (junk : Nat → Nat) (ceilDiv : Nat) :
    Res (Ell R × Domain × Domain) :=
  withDomains (.ok (Ell.zeroMatrix N M)) N M p mode junk ceilDiv

/-- `bml_zero_matrix_dense`, `bml_allocate_dense_typed.c` 146-191, with its domains. -/
def Dense.zeroWithDomains (N p : Nat) (mode : DistMode) (junk : Nat → Nat) (ceilDiv : Nat) :
    Res (Dense R × Domain × Domain) :=
  withDomains (.ok (Dense.zeroMatrix N)) N N p mode junk ceilDiv

/-- `ROWMAJOR(i, j, N, M)`, `src/macros.h` 13, with `int` arguments. -/
def rowmajorInt (i j M : Nat) : Res Nat := do
  let a ← intArith.mul i M
  intArith.add a j

namespace Ell

/-- `bml_getters_ellpack_typed.c` 47-54 with `int` addresses. -/
def findFromInt (A : Ell R) (i j : Nat) : Nat → Nat → Res R
  | _, 0 => .ok 0
  | p, fuel + 1 => do
    let q ← rowmajorInt i p A.M
    let k ← A.idx.read q
    if k = j then A.val.read q else findFromInt A i j (p + 1) fuel

/-- `bml_get_element_ellpack`, lines 18-55, with `int` addresses. -/
def getElementInt (A : Ell R) (i j : Int) : Res R :=
  if i < 0 ∨ i ≥ A.N then .error
  else if j < 0 ∨ j ≥ A.N then .error
  else do
    let n ← A.nnz.read i.toNat
    findFromInt A i.toNat j.toNat 0 n

/-- `value[ROWMAJOR(i,p)] = v; index[ROWMAJOR(i,p)] = k;` with `int` addresses. -/
def putEntryInt (A : Ell R) (i p k : Nat) (v : R) : Res (Ell R) := do
  let q ← rowmajorInt i p A.M
  let val ← A.val.write q v
  let idx ← A.idx.write q k
  pure { A with val := val, idx := idx }

/-- `bml_setters_ellpack_typed.c` 84-92 with `int` addresses. -/
def findSlotInt (A : Ell R) (i j : Nat) : Nat → Nat → Res (Option Nat)
  | _, 0 => .ok none
  | p, fuel + 1 => do
    let q ← rowmajorInt i p A.M
    let k ← A.idx.read q
    if k = j then pure (some p) else findSlotInt A i j (p + 1) fuel

/-- `bml_set_element_ellpack`, lines 66-113, with `int` addresses. -/
def setElementInt (A : Ell R) (i j : Nat) (v : R) : Res (Ell R) := do
  let n ← A.nnz.read i
  if n > 2 then
    match ← findSlotInt A i j 0 n with
    | some l => do
      let q ← rowmajorInt i l A.M
      let val ← A.val.write q v
      pure { A with val := val }
    | none => do
      let A ← A.putEntryInt i n j v
      A.setNnz i (n + 1)
  else do
    let A ← A.putEntryInt i n j v
    A.setNnz i (n + 1)

end Ell

namespace Dense

/-- `bml_get_element_dense`, `bml_getters_dense_typed.c` 19-44, with an `int` address. -/
def getElementInt (A : Dense R) (i j : Nat) : Res R := do
  let q ← rowmajorInt i j A.N
  A.mat.read q

/-- `bml_set_element_dense`, `bml_setters_dense_typed.c` 17-46, with an `int` address. -/
def setElementInt (A : Dense R) (i j : Nat) (v : R) : Res (Dense R) := do
  let q ← rowmajorInt i j A.N
  let mat ← A.mat.write q v
  pure { A with mat := mat }

end Dense

/-! ## Proofs -/

theorem rowmajorInt_ok {i j M : Nat} (h : i * M + j ≤ INT_MAX) : rowmajorInt i j M = .ok (i * M + j) := by
  unfold rowmajorInt intArith
  simp only
  rw [if_pos (by omega), Res.bind_ok, if_pos h]

theorem rowmajorInt_ub {i j M : Nat} (h : INT_MAX < i * M + j) : rowmajorInt i j M = .ub := by
  unfold rowmajorInt intArith
  simp only
  by_cases h1 : i * M ≤ INT_MAX
  · rw [if_pos h1, Res.bind_ok, if_neg (by omega)]
  · rw [if_neg h1]; rfl

namespace Ell

theorem findFromInt_eq {A : Ell R} {i j : Nat} : ∀ fuel p, i * A.M + (p + fuel) ≤ INT_MAX + 1 →
    A.findFromInt i j p fuel = A.findFrom i j p fuel := by
  intro fuel
  induction fuel with
  | zero => intro p _; rfl
  | succ fuel ih =>
    intro p h
    unfold findFromInt findFrom
    rw [rowmajorInt_ok (by omega), Res.bind_ok, ih (p + 1) (by omega)]
    rfl

theorem findSlotInt_eq {A : Ell R} {i j : Nat} : ∀ fuel p, i * A.M + (p + fuel) ≤ INT_MAX + 1 →
    A.findSlotInt i j p fuel = A.findSlot i j p fuel := by
  intro fuel
  induction fuel with
  | zero => intro p _; rfl
  | succ fuel ih =>
    intro p h
    unfold findSlotInt findSlot
    rw [rowmajorInt_ok (by omega), Res.bind_ok, ih (p + 1) (by omega)]
    rfl

theorem putEntryInt_eq {A : Ell R} {i p k : Nat} {v : R} (h : i * A.M + p ≤ INT_MAX) :
    A.putEntryInt i p k v = A.putEntry i p k v := by
  unfold putEntryInt putEntry
  rw [rowmajorInt_ok h, Res.bind_ok]
  rfl

theorem findSlot_lt {A : Ell R} {i j l : Nat} : ∀ fuel p, A.findSlot i j p fuel = .ok (some l) →
    l < p + fuel := by
  intro fuel
  induction fuel with
  | zero => intro p h; exact nomatch h
  | succ fuel ih =>
    intro p h
    unfold findSlot at h
    cases hr : A.idx.read (ROWMAJOR i p A.N A.M) with
    | ok k =>
      rw [hr, Res.bind_ok] at h
      by_cases hk : k = j
      · rw [if_pos hk] at h
        injection h with h
        injection h with h
        omega
      · rw [if_neg hk] at h
        have := ih (p + 1) h
        omega
    | error => rw [hr] at h; exact nomatch h
    | ub => rw [hr] at h; exact nomatch h

theorem row_le {A : Ell R} {N i : Nat} (hN : N * A.M ≤ INT_MAX) (hi : i < N) : i * A.M + A.M ≤ INT_MAX := by
  have h : (i + 1) * A.M ≤ N * A.M := Nat.mul_le_mul_right _ hi
  rw [Nat.succ_mul] at h
  omega

theorem getElementInt_eq {A : Ell R} {N : Nat} {a : Spec.Mat R} (hA : A.Represents N a)
    (hN : N * A.M ≤ INT_MAX) (i j : Int) : A.getElementInt i j = A.getElement i j := by
  unfold getElementInt getElement
  have hrep := represents_iff.1 hA
  split
  · rfl
  · split
    · rfl
    · rename_i h1 h2
      have hi : i.toNat < N := by rw [← hrep.dim]; omega
      rw [Arr.read_ok (by rw [hrep.shape.nnz_size, hrep.dim]; exact hi), Res.bind_ok, Res.bind_ok]
      have := hrep.le _ hi
      have := row_le hN hi
      exact findFromInt_eq _ _ (by omega)

theorem setElementInt_eq {A : Ell R} {N : Nat} {a : Spec.Mat R} (hA : A.Represents N a)
    (hN : N * A.M ≤ INT_MAX) {i : Nat} (hi : i < N) (j : Nat) (v : R) :
    A.setElementInt i j v = A.setElement i j v := by
  have hrep := represents_iff.1 hA
  have hle := hrep.le _ hi
  have hrow := row_le hN hi
  unfold setElementInt setElement
  rw [Arr.read_ok (by rw [hrep.shape.nnz_size, hrep.dim]; exact hi), Res.bind_ok, Res.bind_ok,
    findSlotInt_eq _ _ (by omega), putEntryInt_eq (by omega)]
  split
  · cases hs : A.findSlot i j 0 (A.nnz.get i) with
    | ok o =>
      rw [Res.bind_ok, Res.bind_ok]
      cases o with
      | none => rfl
      | some l =>
        have := findSlot_lt _ _ hs
        simp only
        rw [rowmajorInt_ok (by omega), Res.bind_ok]
        rfl
    | error => rfl
    | ub => rfl
  · rfl

end Ell

/-! ### Domains -/

namespace Domain

/-- A domain of sequential mode exists only if its elements can be counted in an `int`. -/
theorem sequential_ub {N M p : Nat} (hp : 0 < p) (h : INT_MAX < N * M) (junk : Nat → Nat) (cd : Nat) :
    default N M p .sequential junk cd = .ub := by
  have h1 : ∀ k, k < p → loop (k + 1) (alloc N M p junk) (sequentialRank intArith) = .ub := by
    intro k hk
    induction k with
    | zero =>
      rw [loop_succ, loop_zero, Res.bind_ok]
      unfold sequentialRank
      simp only [alloc]
      rw [Arr.write_ok _ (by exact hk), Res.bind_ok, Arr.write_ok _ (by exact hk), Res.bind_ok,
        Arr.read_ok (by exact hk), Res.bind_ok, Arr.read_ok (by exact hk), Res.bind_ok,
        Arr.write_ok _ (by exact hk), Res.bind_ok, Arr.read_ok (by exact hk), Res.bind_ok]
      simp only [upd_same, Nat.sub_zero]
      unfold intArith
      simp only
      rw [if_neg (by omega)]
      rfl
    | succ k ih => rw [loop_succ, ih (by omega)]; rfl
  have := h1 (p - 1) (by omega)
  rwa [show p - 1 + 1 = p by omega] at this

/-- The displacements of a domain of distributed mode fit in an `int`. -/
theorem elemRank_displ {k : Nat} {d : Domain} (h : ∀ i, i < k → d.displ.get i ≤ INT_MAX) :
    (elemRank intArith k d).wlp fun d' => ∀ i, i < k + 1 → d'.displ.get i ≤ INT_MAX := by
  unfold elemRank
  refine Res.wlp_bind.2 fun e _ => Res.wlp_bind.2 fun m _ => Res.wlp_bind.2 fun el _ =>
    Res.wlp_bind.2 fun disp hdisp => Res.wlp_bind.2 fun dd hdd => ?_
  refine Res.wlp_ok.2 fun i hi => ?_
  have hle : disp ≤ INT_MAX := by
    split at hdisp
    · injection hdisp with hdisp
      omega
    · have : (do let a ← d.displ.read (k - 1); let b ← el.read (k - 1); intArith.add a b : Res Nat).wlp
          fun x => x ≤ INT_MAX := by
        refine Res.wlp_bind.2 fun a _ => Res.wlp_bind.2 fun b _ => ?_
        intro x hx
        unfold intArith at hx
        simp only at hx
        split at hx
        · injection hx with hx
          omega
        · exact nomatch hx
      exact this _ hdisp
  have hget : dd.get = upd d.displ.get k disp := by
    unfold Arr.write at hdd
    split at hdd
    · injection hdd with hdd
      rw [← hdd]
    · exact nomatch hdd
  show dd.get i ≤ INT_MAX
  rw [hget]
  by_cases hik : i = k
  · rw [hik, upd_same]; exact hle
  · rw [upd_ne _ _ hik]; exact h i (by omega)

theorem default_displ {N M p : Nat} {junk : Nat → Nat} {cd : Nat} {d : Domain}
    (h : default N M p .distributed junk cd = .ok d) : ∀ i, i < p → d.displ.get i ≤ INT_MAX := by
  have key : (default N M p .distributed junk cd).wlp fun d => ∀ i, i < p → d.displ.get i ≤ INT_MAX := by
    unfold default defaultWith
    simp only
    split
    · exact Res.wlp_ub
    · unfold distribute
      refine Res.wlp_bind.2 fun _ _ => Res.wlp_bind.2 fun _ _ => Res.wlp_bind.2 fun _ _ =>
        Res.wlp_bind.2 fun _ _ => Res.wlp_bind.2 fun _ _ => Res.wlp_bind.2 fun _ _ => Res.wlp_bind.2 fun d _ => ?_
      exact wlp_loop (fun k (d : Domain) => ∀ i, i < k → d.displ.get i ≤ INT_MAX)
        (fun i hi => absurd hi (Nat.not_lt_zero _)) fun k hk d hd => elemRank_displ hd
  exact key d h

/-- In distributed mode the rows before the last rank, times the width, must fit in an `int`. -/
theorem distributed_bound {N M p : Nat} (hp : 0 < p) {junk : Nat → Nat} {cd : Nat} {d : Domain}
    (h : default N M p .distributed junk cd = .ok d) : (N - N / p) * M ≤ INT_MAX := by
  have h1 := default_displ h (p - 1) (by omega)
  have h2 := default_exact h
  unfold defaultWith at h2
  simp only at h2
  rw [if_neg (by omega)] at h2
  have h3 := wp_distribute (E := False) (ar := exactArith) hp (exactArith_fits N M) junk cd
  rw [h2, Res.wp_ok] at h3
  rw [h3.2.2 (p - 1) (by omega)] at h1
  have h4 := start_succ N p (p - 1)
  rw [show p - 1 + 1 = p by omega, start_last N p hp] at h4
  have h5 : ¬ (p - 1 < N - p * (N / p)) := by
    have e1 := Nat.div_add_mod N p
    have e2 := Nat.mod_lt N hp
    omega
  rw [if_neg h5, Nat.add_zero] at h4
  rwa [show N - N / p = start N p (p - 1) by omega]

/-- The number of elements of a rank fits too. -/
theorem distributed_first {N M p : Nat} (hp : 0 < p) {junk : Nat → Nat} {cd : Nat} {d : Domain}
    (h : default N M p .distributed junk cd = .ok d) :
    ∀ i, i < p → d.rowMin.get i * M ≤ INT_MAX := by
  intro i hi
  have h2 := default_exact h
  unfold defaultWith at h2
  simp only at h2
  rw [if_neg (by omega)] at h2
  have h3 := wp_distribute (E := False) (ar := exactArith) hp (exactArith_fits N M) junk cd
  rw [h2, Res.wp_ok] at h3
  rw [h3.1.lo i hi, ← h3.2.2 i hi]
  exact default_displ h i hi

end Domain

end Bml
