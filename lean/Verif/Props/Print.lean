import Verif.Print
import Verif.Props.FortranDense
import Verif.Props.Ellblock
import Verif.Props.Dist2

/-!
# C76: printing
-/

namespace Bml.Props

open Bml Bml.Print Bml.Fortran

variable {R : Type}

/-- Rows as they are printed: the elements of a row, then a line end. -/
def lines (rows : List (List R)) : List (Tok R) := rows.flatMap fun r => r.map Tok.elem ++ [Tok.nl]

/-- The part of a matrix with rows `il ≤ i < iu` and columns `jl ≤ j < ju`. -/
def window (a : Spec.Mat R) (il iu jl ju : Nat) : List (List R) :=
  (List.range (iu - il)).map fun p => (List.range (ju - jl)).map fun q => a (il + p) (jl + q)

theorem loopInt_append {lo hi : Nat} {g : Nat → List (Tok R)} {f : Int → List (Tok R) → Res (List (Tok R))}
    (out : List (Tok R))
    (h : ∀ k, k < hi - lo → ∀ o, f ((lo + k : Nat) : Int) o = .ok (o ++ g k)) :
    loopInt (lo : Int) (hi : Int) out f = .ok (out ++ (List.range (hi - lo)).flatMap g) := by
  unfold loopInt
  have e : ((hi : Int) - (lo : Int)).toNat = hi - lo := by omega
  rw [e]
  generalize hi - lo = n at h
  induction n with
  | zero => simp [loop]
  | succ n ih =>
    rw [loop_succ, ih (fun k hk => h k (by omega)), Res.bind_ok]
    have := h n (Nat.lt_succ_self n) (out ++ (List.range n).flatMap g)
    push_cast at this
    rw [this, List.range_succ, List.flatMap_append, List.append_assoc]
    simp

/-- Printing a part of an array. -/
theorem printDense_eq {order : Order} {N : Nat} {x : Arr R} {a : Spec.Mat R} {il iu jl ju : Nat}
    (hx : ∀ i j, il ≤ i → i < iu → jl ≤ j → j < ju →
      order.addr i j N < x.size ∧ x.get (order.addr i j N) = a i j) (out : List (Tok R)) :
    printDense order N x il iu jl ju out = .ok (out ++ lines (window a il iu jl ju)) := by
  have ha : ∀ i j : Nat, Print.addr order N (i : Int) (j : Int) = ((order.addr i j N : Nat) : Int) := by
    intro i j
    cases order
    · show ((i : Int) * N + j) = ((i * N + j : Nat) : Int)
      push_cast; rfl
    · show ((i : Int) + j * N) = ((i + j * N : Nat) : Int)
      push_cast; rfl
  unfold printDense
  rw [loopInt_append (g := fun p => ((List.range (ju - jl)).map fun q => a (il + p) (jl + q)).map
    Tok.elem ++ [Tok.nl]) out]
  · unfold lines window
    rw [List.flatMap_map]
  · intro p hp o
    rw [loopInt_append (g := fun q => [Tok.elem (a (il + p) (jl + q))]) o]
    · rw [Res.bind_ok, ← List.map_eq_flatMap, List.map_map, List.append_assoc]
      rfl
    · intro q hq o
      obtain ⟨h1, h2⟩ := hx (il + p) (jl + q) (by omega) (by omega) (by omega) (by omega)
      rw [ha]
      unfold readInt
      rw [if_neg (by omega), Int.toNat_natCast, Arr.read_ok h1, Res.bind_ok, h2]
      rfl

variable [CommRing R]

/-- The matrix represents `a`; for block-ELLPACK, it has elements and no block is empty. -/
def Shows (N : Nat) (a : Spec.Mat R) : AnyMat R → Prop
  | .dense A => A.Represents N a
  | .ellpack A => A.Represents N a
  | .ellblock A => A.Represents N a ∧ 0 < N ∧ ∀ ib, ib < A.NB → 0 < A.bsize.get ib
  | .csr A => A.Represents N a

omit [CommRing R] in
theorem printExported {N : Nat} {x : Arr R} {a : Spec.Mat R} (hs : x.size = N * N)
    (hg : ∀ i j, i < N → j < N → x.get (i * N + j) = a i j) {il iu jl ju : Nat} (hi : iu ≤ N)
    (hj : ju ≤ N) (out : List (Tok R)) :
    printDense .rowMajor N x il iu jl ju out = .ok (out ++ lines (window a il iu jl ju)) :=
  printDense_eq (fun i j _ h2 _ h4 => ⟨by rw [hs]; exact addr_lt (by omega) (by omega),
    hg i j (by omega) (by omega)⟩) out

/-- **C76** `bml_print_bml_matrix`: for every format a line for each row `il ≤ i < iu` with the elements
`jl ≤ j < ju`, and nothing else. -/
theorem C76_matrix {N : Nat} {a : Spec.Mat R} {A : AnyMat R} (hA : Shows N a A) {sc : Sched}
    (hsc : IsSched 0 N sc) {il iu jl ju : Nat} (hi : iu ≤ N) (hj : ju ≤ N) (out : List (Tok R)) :
    printMatrix sc A il iu jl ju out = .ok (out ++ lines (window a il iu jl ju)) := by
  cases A with
  | dense A =>
    have h := Dense.represents_iff.1 hA
    unfold printMatrix
    simp only
    rw [h.dim]
    exact printExported h.size h.get hi hj out
  | ellpack A =>
    obtain ⟨x, e, hs, hg⟩ := C06_export hA .rowMajor hsc
    unfold printMatrix
    simp only
    rw [e, Res.bind_ok, (Ell.represents_iff.1 hA).dim]
    exact printExported hs hg hi hj out
  | ellblock A =>
    obtain ⟨hA, hN, hpos⟩ := hA
    have hdim : A.N = N := by
      obtain ⟨L, h⟩ := EllB.represents_iff.1 hA
      exact h.dim
    obtain ⟨x, e, hs, hg⟩ := C55_export hA hN hpos (addr := fun i j => ROWMAJOR i j N N) (Or.inl rfl)
    unfold printMatrix
    simp only
    rw [hdim, e, Res.bind_ok]
    exact printExported hs hg hi hj out
  | csr A =>
    obtain ⟨x, e, hs, hg⟩ :=
      Res.wp_exists (Csr.wp_exportDense (E := False) (Csr.represents_iff.1 hA) .rowMajor hsc)
    unfold printMatrix
    simp only
    rw [e, Res.bind_ok, (Csr.represents_iff.1 hA).dim]
    exact printExported hs hg hi hj out

/-- **C76** for distributed matrices: the first process prints, the others do not. -/
theorem C76_distributed {τ : Type} {L : Dist.Local τ R} {n m p : Nat} {kp thr : R → R}
    {Rep RepC : τ → Spec.Mat R → Prop} (hL : L.Exact n m kp thr Rep RepC) (hp : 0 < p)
    (hN : p * n * (p * n) ≤ INT_MAX) {D : Nat → τ} {a : Spec.Mat R} (hA : Dist.Holds Rep p n D a)
    (junk : Nat → R) (rank : Nat) {il iu jl ju : Nat} (hi : iu ≤ p * n) (hj : ju ≤ p * n)
    (out : List (Tok R)) :
    printDist L p (p * n) D junk rank il iu jl ju out =
      .ok (if rank = 0 then out ++ lines (window a il iu jl ju) else out) := by
  obtain ⟨x, e, hs, hg⟩ := C43_export_row_major_partial hL hp hN hA junk
  unfold printDist
  rw [e, Res.bind_ok]
  split
  · exact printExported hs hg hi hj out
  · rfl

omit [CommRing R] in
/-- **C76** `bml_print_dense_vector`: one line with the elements `il ≤ i < iu`. -/
theorem C76_vector {x : Arr R} {il iu : Nat} (hi : iu ≤ x.size) (out : List (Tok R)) :
    printVector x il iu out =
      .ok (out ++ (List.range (iu - il)).map (fun q => Tok.elem (x.get (il + q))) ++ [Tok.nl]) := by
  unfold printVector
  rw [loopInt_append (g := fun q => [Tok.elem (x.get (il + q))]) out]
  · rw [Res.bind_ok, ← List.map_eq_flatMap]
    rfl
  · intro q hq o
    unfold readInt
    rw [if_neg (by omega), Int.toNat_natCast, Arr.read_ok (by omega), Res.bind_ok]
    rfl

omit [CommRing R] in
/-- **C76 (partial)**, Fortran `bml_print_matrix` of an array whose columns lie one after the other:
the rows from `il` to `iu`, counted from one and inclusive.  Missing: other arrays, see
`C76_section_wrong`. -/
theorem C76_array_partial {S : Section R} (hc : Contiguous S) (hv : S.Valid) {il iu jl ju : Nat}
    (h1 : 1 ≤ il) (h2 : iu ≤ S.n1) (h3 : 1 ≤ jl) (h4 : ju ≤ S.n2) (out : List (Tok R)) :
    printArray S il iu jl ju out = .ok (out ++ lines ((List.range (iu + 1 - il)).map fun p =>
      (List.range (ju + 1 - jl)).map fun q => S.elem (il + p) (jl + q))) := by
  unfold printArray
  have e1 : (il : Int) - 1 = ((il - 1 : Nat) : Int) := by omega
  have e2 : (jl : Int) - 1 = ((jl - 1 : Nat) : Int) := by omega
  rw [Int.sub_add_cancel, Int.sub_add_cancel, e1, e2, printDense_eq (a := cElem S)]
  · unfold window
    congr 3
    have e3 : iu - (il - 1) = iu + 1 - il := by omega
    have e4 : ju - (jl - 1) = ju + 1 - jl := by omega
    rw [e3, e4]
    refine List.map_congr_left fun p _ => List.map_congr_left fun q _ => ?_
    rw [cElem_contiguous hc]
    congr 1 <;> omega
  · intro i j _ hi _ hj
    refine ⟨?_, rfl⟩
    have h := hv (i + 1) (j + 1) (by omega) (by omega) (by omega) (by omega)
    unfold Section.pos at h
    rw [hc.down, hc.across] at h
    have e : (S.off : Int) + (((i + 1 : Nat) : Int) - 1) * 1 + (((j + 1 : Nat) : Int) - 1) * (S.n1 : Int) =
        ((S.off + (i + j * S.n1) : Nat) : Int) := by push_cast; ring
    rw [e] at h
    show i + j * S.n1 < S.mem.size - S.off
    omega

/-- **C76 fails in Fortran** for matrices: with the bounds of the whole matrix, counted from one as for
arrays, `bml_print_matrix` leaves out the first row and the first column. -/
theorem C76_fortran_bounds {N : Nat} {a : Spec.Mat R} {A : AnyMat R} (hA : Shows N a A) {sc : Sched}
    (hsc : IsSched 0 N sc) (out : List (Tok R)) :
    printFortran sc A 1 N 1 N out = .ok (out ++ lines (window a 1 N 1 N)) ∧
    (window a 1 N 1 N).length = N - 1 := by
  refine ⟨C76_matrix hA hsc (il := 1) (jl := 1) le_rfl le_rfl out, ?_⟩
  unfold window
  rw [List.length_map, List.length_range]

/-- **C76 fails** for bounds beyond the matrix: column `N` of row `i` is not refused, the first element
of the next row is printed in its place. -/
theorem C76_beyond {N : Nat} {a : Spec.Mat R} {A : AnyMat R} (hA : Shows N a A) {sc : Sched}
    (hsc : IsSched 0 N sc) {i : Nat} (hi : i + 1 < N) (out : List (Tok R)) :
    printMatrix sc A i ((i + 1 : Nat) : Int) N ((N + 1 : Nat) : Int) out =
      .ok (out ++ [Tok.elem (a (i + 1) 0), Tok.nl]) := by
  have key : ∀ x : Arr R, x.size = N * N → (∀ i j, i < N → j < N → x.get (i * N + j) = a i j) →
      printDense .rowMajor N x i ((i + 1 : Nat) : Int) N ((N + 1 : Nat) : Int) out =
        .ok (out ++ [Tok.elem (a (i + 1) 0), Tok.nl]) := by
    intro x hs hg
    rw [printDense_eq (a := fun _ _ => a (i + 1) 0)]
    · unfold lines window
      rw [show i + 1 - i = 1 by omega, show N + 1 - N = 1 by omega]
      rfl
    · intro i' j' g1 g2 g3 g4
      obtain rfl : i' = i := by omega
      obtain rfl : j' = N := by omega
      have e : Order.rowMajor.addr i' j' j' = (i' + 1) * j' + 0 := by
        show i' * j' + j' = _
        ring
      rw [e]
      exact ⟨by rw [hs]; exact addr_lt hi (by omega), hg (i' + 1) 0 hi (by omega)⟩
  cases A with
  | dense A =>
    have h := Dense.represents_iff.1 hA
    unfold printMatrix
    simp only
    rw [h.dim]
    exact key _ h.size h.get
  | ellpack A =>
    obtain ⟨x, e, hs, hg⟩ := C06_export hA .rowMajor hsc
    unfold printMatrix
    simp only
    rw [e, Res.bind_ok, (Ell.represents_iff.1 hA).dim]
    exact key x hs hg
  | ellblock A =>
    obtain ⟨hA, hN, hpos⟩ := hA
    have hdim : A.N = N := by
      obtain ⟨L, h⟩ := EllB.represents_iff.1 hA
      exact h.dim
    obtain ⟨x, e, hs, hg⟩ := C55_export hA hN hpos (addr := fun i j => ROWMAJOR i j N N) (Or.inl rfl)
    unfold printMatrix
    simp only
    rw [hdim, e, Res.bind_ok]
    exact key x hs hg
  | csr A =>
    obtain ⟨x, e, hs, hg⟩ :=
      Res.wp_exists (Csr.wp_exportDense (E := False) (Csr.represents_iff.1 hA) .rowMajor hsc)
    unfold printMatrix
    simp only
    rw [e, Res.bind_ok, (Csr.represents_iff.1 hA).dim]
    exact key x hs hg

omit [CommRing R] in
/-- **C76 fails in Fortran** for sections of larger arrays: printing `p(1:n, 1:n)` of an array `p` with
more than `n` rows shows `p(n+1,1)` as element `(1,2)`. -/
theorem C76_section_wrong {x : Arr R} {ld n2 n : Nat} (hx : x.size = ld * n2) (hn : 2 ≤ n)
    (hld : n < ld) (hn2 : n ≤ n2) (out : List (Tok R)) :
    printArray ⟨x, 0, 1, ld, n, n⟩ 1 1 2 2 out =
      .ok (out ++ [Tok.elem ((Section.whole x ld n2).elem (n + 1) 1), Tok.nl]) := by
  have hs : n < x.size := by
    rw [hx]
    nlinarith
  have h := printDense_eq (order := .colMajor) (N := n) (x := (⟨x, 0, 1, ld, n, n⟩ : Section R).passed)
    (a := fun _ _ => x.get n) (il := 0) (iu := 1) (jl := 1) (ju := 2) (by
      intro i j _ h2 h3 h4
      obtain rfl : i = 0 := by omega
      obtain rfl : j = 1 := by omega
      have e : Order.colMajor.addr 0 1 n = n := by
        show 0 + 1 * n = n
        omega
      rw [e]
      refine ⟨?_, ?_⟩
      · show n < x.size - 0
        omega
      · show x.get (0 + n) = x.get n
        rw [Nat.zero_add]) out
  have e : (Section.whole x ld n2).elem (n + 1) 1 = x.get n := by
    unfold Section.elem Section.pos Section.whole
    simp only
    congr 1
    push_cast
    omega
  rw [e]
  exact h

/-! ## Examples -/

/-- The whole of a 3 × 3 ELLPACK matrix, and rows 1 and 2 of its first column. -/
example : printMatrix exSched (.ellpack exA) 0 3 0 3 [] = .ok (lines (window exa 0 3 0 3)) ∧
    printMatrix exSched (.ellpack exA) 1 3 0 1 [] =
      .ok [.elem (exa 1 0), .nl, .elem (exa 2 0), .nl] :=
  ⟨C76_matrix (A := .ellpack exA) exA_rep exSched_ok (il := 0) (jl := 0) le_rfl le_rfl [],
    C76_matrix (A := .ellpack exA) exA_rep exSched_ok (il := 1) (iu := 3) (jl := 0) (ju := 1) le_rfl
      (by decide) []⟩

/-- A dense matrix in Fortran, printed with the bounds of the whole matrix. -/
example : printFortran [] (.dense (Dense.ofMat 2 exD)) 1 2 1 2 [] = .ok [.elem (exD 1 1), .nl] ∧
    printMatrix [] (.dense (Dense.ofMat 2 exD)) 0 2 0 2 [] =
      .ok [.elem (exD 0 0), .elem (exD 0 1), .nl, .elem (exD 1 0), .elem (exD 1 1), .nl] := by
  decide +kernel

example : printFortran (seqSched 0 2) (.dense (Dense.ofMat 2 exD)) 1 (2 : Nat) 1 (2 : Nat) [] =
      .ok (lines (window exD 1 2 1 2)) ∧ (window exD 1 2 1 2).length = 1 :=
  C76_fortran_bounds (A := .dense (Dense.ofMat 2 exD)) (Dense.ofMat_rep 2 exD) (isSched_seq 0 2) []

example : printMatrix (seqSched 0 2) (.dense (Dense.ofMat 2 exD)) (0 : Nat) (1 : Nat) (2 : Nat)
    (3 : Nat) [] = .ok [.elem (exD 1 0), .nl] :=
  C76_beyond (A := .dense (Dense.ofMat 2 exD)) (Dense.ofMat_rep 2 exD) (isSched_seq 0 2) (by decide) []

example (rank : Nat) : printDist exL 2 4 (denseTiles 2 2 exG) (fun _ => 9) rank (1 : Nat) (3 : Nat)
    (2 : Nat) (4 : Nat) [] =
      .ok (if rank = 0 then [.elem (exG 1 2), .elem (exG 1 3), .nl, .elem (exG 2 2), .elem (exG 2 3),
        .nl] else []) :=
  C76_distributed exL_exact (by decide) (by decide) (denseTiles_holds 2 2 exG) _ rank (by decide)
    (by decide) []

example : printVector ⟨3, fun q => (q : Int) * 10⟩ (1 : Nat) (3 : Nat) [] =
    .ok [.elem 10, .elem 20, .nl] := C76_vector (by decide) []

example : printArray exF2 (1 : Nat) (2 : Nat) (2 : Nat) (2 : Nat) [] =
    .ok [.elem (exF2.elem 1 2), .nl, .elem (exF2.elem 2 2), .nl] :=
  C76_array_partial exF2_ok.1 exF2_ok.2 (by decide) (by decide) (by decide) (by decide) []

/-- `p(1:2,1:2)` of the array `p = [[1,2,3],[4,5,6],[7,8,9]]`. -/
example : printArray ⟨⟨9, fun q => [(1 : Int), 4, 7, 2, 5, 8, 3, 6, 9].getD q 0⟩, 0, 1, 3, 2, 2⟩
    1 1 2 2 [] = .ok [.elem 7, .nl] :=
  C76_section_wrong (x := ⟨9, fun q => [(1 : Int), 4, 7, 2, 5, 8, 3, 6, 9].getD q 0⟩) (ld := 3)
    (n2 := 3) (n := 2) rfl (by decide) (by decide) (by decide) []

end Bml.Props
