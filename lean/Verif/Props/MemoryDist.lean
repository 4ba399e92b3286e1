import Verif.Memory.Dist
import Verif.Memory.DistCsr
import Verif.Props.Memory

/-!
# C85 for distributed matrices

What a call leaves on one rank, for any format of the tiles whose own calls leave nothing behind
(`Spec.SafeFormat`; dense and ELLPACK tiles are such).  The blocks of a distributed matrix are its
structure, its two communicators and the blocks of its tile.
-/

namespace Bml
namespace Spec

open Memory

/-- The calls of a format leave their operands and their result; a new matrix has `size` blocks. -/
structure SafeFormat {L : Type} (F : Fmt L) (size : Nat) : Prop where
  zero : Leaves F.zero 0 F.blocks
  count : ∀ H r, F.zero H = .ok r → (F.blocks r.1).card = size
  copyNew : ∀ a, Leaves (F.copyNew a) (F.blocks a) fun t => F.blocks a + F.blocks t
  copyTo : ∀ a b, Leaves (F.copyTo a b) (F.blocks a + F.blocks b) fun t => F.blocks a + F.blocks t
  deallocate : ∀ a, Leaves (F.deallocate a) (F.blocks a) fun _ => 0
  array : ∀ a, Leaves (F.array a) (F.blocks a) fun p => F.blocks a + {p}
  fromArray : ∀ p, Leaves (F.fromArray p) {p} fun t => {p} + F.blocks t
  multiply : ∀ k a b c, Leaves (F.multiply k a b c) (F.blocks a + F.blocks b + F.blocks c)
    fun t => F.blocks a + F.blocks b + F.blocks t
  send : ∀ a, Leaves (F.send a) (F.blocks a) fun _ => F.blocks a
  recv : ∀ a, Leaves (F.recv a) (F.blocks a) F.blocks
  transpose : ∀ a, Leaves (F.transpose a) (F.blocks a) F.blocks

/-- What one rank has of a distributed matrix. -/
def onRank {L : Type} (F : Fmt L) (A : DistO L) : Multiset Blk :=
  {A.self} + {A.row} + {A.col} + F.blocks A.tile

/-- An array, if there is one. -/
def arrayOf : Option Blk → Multiset Blk
  | none => 0
  | some p => {p}

end Spec

namespace Props

open Memory _root_.Bml.Spec

theorem dist_owns {α : Type} {c : M α} {P : Multiset Blk} {after : α → Multiset Blk} (h : Leaves c P after) :
    Owns False P c fun a P' => P' = after a := by
  intro F
  obtain ⟨r, hr⟩ := h F
  rw [hr]
  exact ⟨_, rfl, rfl⟩

theorem dist_safe {L : Type} {F : Fmt L} {size : Nat} (h : SafeFormat F size) : F.Safe False size where
  zero := by
    intro X
    obtain ⟨r, hr⟩ := h.zero X
    have hc := h.count _ _ hr
    rw [hr]
    exact ⟨_, ⟨rfl, hc⟩, rfl⟩
  copyNew a := dist_owns (h.copyNew a)
  copyTo a b := dist_owns (h.copyTo a b)
  deallocate a := dist_owns (h.deallocate a)
  array a := dist_owns (h.array a)
  fromArray a := dist_owns (h.fromArray a)
  multiply k a b c := dist_owns (h.multiply k a b c)
  send a := dist_owns (h.send a)
  recv a := dist_owns (h.recv a)
  transpose a := dist_owns (h.transpose a)

theorem dist_format {L : Type} {F : Fmt L} {size : Nat} (h : F.Safe False size)
    (hc : ∀ t, (F.blocks t).card = size) : SafeFormat F size where
  zero := mem_leaves h.zero fun _ _ h => h.1
  count _ _ _ := hc _
  copyNew a := mem_leaves (h.copyNew a) fun _ _ h => h
  copyTo a b := mem_leaves (h.copyTo a b) fun _ _ h => h
  deallocate a := mem_leaves (h.deallocate a) fun _ _ h => h
  array a := mem_leaves (h.array a) fun _ _ h => h
  fromArray a := mem_leaves (h.fromArray a) fun _ _ h => h
  multiply k a b c := mem_leaves (h.multiply k a b c) fun _ _ h => h
  send a := mem_leaves (h.send a) fun _ _ h => h
  recv a := mem_leaves (h.recv a) fun _ _ h => h
  transpose a := mem_leaves (h.transpose a) fun _ _ h => h

theorem dist_array : ∀ r : Option Blk, optBlk r = arrayOf r
  | none => rfl
  | some _ => rfl

variable [Allocator] {L K : Type} {F : Fmt L} {size : Nat}

/-- Dense and ELLPACK tiles are safe. -/
theorem C85_distributed_formats (N : Nat) (plain : Nat → Bool) :
    SafeFormat (denseFmt N) 14 ∧ SafeFormat (ellFmt N plain) 16 :=
  ⟨dist_format (denseFmt_safe N) fun A => by simp [denseFmt, DenseO.blocks, Dom.blocks],
    dist_format (ellFmt_safe N plain) fun A => by simp [ellFmt, EllO.blocks, Dom.blocks]⟩

/-- CSR tiles are safe where, in the sums a product ends with, the rows that grow do so last; whatever rows grow
in imports, messages, transposes and products.  Missing: copies to rows that are too small, which end with an
error. -/
theorem C85_distributed_csr_format_partial (N : Nat) (imp msg tr : List (Nat × Bool)) (plain : Nat → Bool)
    (threads : Nat) (app : Nat → List (Nat × Bool)) (es : Nat → Nat → List Entry) (hi : ∀ x ∈ imp, x.1 < N)
    (hm : ∀ x ∈ msg, x.1 < N) (ht : ∀ x ∈ tr, x.1 < N) (ha : ∀ k, ∀ x ∈ app k, x.1 < N)
    (he : ∀ k i, GrowsLast (es k i)) :
    SafeFormat (csrFmt N imp msg tr plain threads app es) (3 * N + 2) :=
  dist_format (csrFmt_safe N imp msg tr plain threads app es hi hm ht ha fun k i => mem_safe _ (he k i))
    fun A => by
      show A.mat.blocks.card = _
      rw [CsrO.card, A.rows]

/-- CSR tiles of two rows on rank (1,0) of 2 x 2; row 1 grows in every message and in the last product.  The
matrices released, three pairs of communicators remain. -/
example : Res.okAnd (fun r => decide (r.2.card = 6)) (letI := exTop; (do
      let F := csrFmt 2 [(0, false)] [(0, false), (1, true)] [(1, true)] (fun _ => false) 1
        (fun k => if k = 1 then [(1, true)] else []) (fun _ i => if i = 1 then [.found, .append true] else [])
      let A ← newDist F
      let B ← newDist F
      let C ← newDist F
      let C' ← A.multiply F 2 1 0 B C
      A.deallocate F
      B.deallocate F
      C'.deallocate F : M Unit) 0) = true := by
  decide +kernel

/-- Constructors, copies, transposes and Gershgorin bounds leave their operands and the result. -/
theorem C85_distributed_calls (hF : SafeFormat F size) (A : DistO L) (off diag : Bool) :
    Leaves (newDist F) 0 (onRank F) ∧
    Leaves (A.copyNew F) (onRank F A) (fun B => onRank F A + onRank F B) ∧
    Leaves (A.transposeNew F off) (onRank F A) (fun B => onRank F A + onRank F B) ∧
    Leaves (A.gershgorin F diag) (onRank F A) (fun p => onRank F A + {p}) :=
  ⟨mem_leaves (newDist_owns (dist_safe hF)) fun _ _ h => h.1,
    mem_leaves (A.copyNew_owns (dist_safe hF)) fun _ _ h => h,
    mem_leaves (A.transposeNew_owns (dist_safe hF) off) fun _ _ h => h,
    mem_leaves (A.gershgorin_owns (dist_safe hF) diag) fun _ _ h => h⟩

/-- The import from an array, on rank 0 and on the others. -/
theorem C85_distributed_import (hF : SafeFormat F size) (first : Bool) (ntasks : Nat) (a : Blk) :
    Leaves (importDist F first ntasks a) {a} fun A => {a} + onRank F A :=
  mem_leaves (importDist_owns (dist_safe hF) first ntasks a) fun _ _ h => h

omit [Allocator] in
/-- The product of distributed matrices, on every rank of every square of ranks. -/
theorem C85_distributed_multiply (hF : SafeFormat F size) (p prow pcol : Nat) (A B C : DistO L) :
    Leaves (A.multiply F p prow pcol B C) (onRank F A + onRank F B + onRank F C)
      (fun C' => onRank F A + onRank F B + onRank F C') ∧
    Leaves (A.multiply F p prow pcol A C) (onRank F A + onRank F C) (fun C' => onRank F A + onRank F C') :=
  ⟨mem_leaves (A.multiply_owns (dist_safe hF) p prow pcol B C (onRank F A + onRank F B)
      (Multiset.le_add_right _ _) (Multiset.le_add_left _ _)) fun _ _ h => h,
    mem_leaves (A.multiply_owns (dist_safe hF) p prow pcol A C (onRank F A) le_rfl le_rfl) fun _ _ h => h⟩

/-- A product on rank (1,0) of 3 x 3, then the tiles are released: only what was there remains, and the three
pairs of communicators. -/
example : Res.okAnd (fun r => decide (r.2.card = 1 + 6)) (letI := exTop; (do
      let A ← newDist (denseFmt 2)
      let B ← newDist (denseFmt 2)
      let C ← newDist (denseFmt 2)
      let C' ← A.multiply (denseFmt 2) 3 1 0 B C
      A.deallocate (denseFmt 2)
      B.deallocate (denseFmt 2)
      C'.deallocate (denseFmt 2) : M Unit) {7}) = true := by
  decide +kernel

/-! ## What is lost -/

/-- The release of a distributed matrix keeps its two communicators, and so does a transpose in place, which
makes and releases one. -/
theorem C85_distributed_release_leaks (hF : SafeFormat F size) (A : DistO L) (off : Bool) :
    Loses 2 (A.deallocate F) (onRank F A) (fun _ => 0) ∧
      Loses 2 (A.transpose F off) (onRank F A) (onRank F) := by
  refine ⟨mem_loses (A.deallocate_owns (dist_safe hF)) ?_,
    mem_loses (A.transpose_owns (dist_safe hF) off) fun _ _ h => h⟩
  rintro _ _ rfl
  exact ⟨_, (zero_add _).symm, by simp⟩

/-- The export to a dense array loses the exported tile, on every rank. -/
theorem C85_distributed_export_leaks (hF : SafeFormat F size) (first : Bool) (ntasks : Nat) (A : DistO L) :
    Loses 1 (A.toDense F first ntasks) (onRank F A) fun r => onRank F A + arrayOf r := by
  refine mem_loses (A.toDense_owns (dist_safe hF) first ntasks) ?_
  rintro r _ ⟨X, rfl, h⟩
  exact ⟨X, by rw [dist_array]; rfl, h⟩

/-- Reading a row loses the part of the row on the ranks that have one; the others lose nothing. -/
theorem C85_distributed_get_row_leaks (hF : SafeFormat F size) (A : DistO L) :
    Loses 1 (A.getRow F true) (onRank F A) (fun p => onRank F A + {p}) ∧
      Leaves (A.getRow F false) (onRank F A) (fun p => onRank F A + {p}) := by
  refine ⟨mem_loses (A.getRow_owns (dist_safe hF) true) fun _ _ h => h,
    mem_leaves (A.getRow_owns (dist_safe hF) false) ?_⟩
  rintro p _ ⟨X, rfl, h⟩
  have hX : X = 0 := Multiset.card_eq_zero.1 h
  rw [hX, add_zero]
  rfl

/-- A conversion loses the tile its result was made with: all blocks of a matrix. -/
theorem C85_distributed_convert_leaks {G : Fmt K} (hG : SafeFormat G size) (conv : L → M K)
    (A : DistO L)
    (hc : Leaves (conv A.tile) (F.blocks A.tile) fun t => F.blocks A.tile + G.blocks t) :
    Loses size (A.convert G conv) (onRank F A) fun B => onRank F A + onRank G B :=
  mem_loses (A.convert_owns (F := F) (dist_safe hG) conv (dist_owns hc)) fun _ _ h => h

/-- A conversion of dense tiles to ELLPACK; both matrices released: 16 blocks of the lost tile and two pairs of
communicators remain. -/
example : Res.okAnd (fun r => decide (r.2.card = 16 + 4)) (letI := exTop; (do
      let A ← newDist (denseFmt 2)
      let B ← A.convert (ellFmt 2 fun _ => true) fun _ => newEll 2
      A.deallocate (denseFmt 2)
      B.deallocate (ellFmt 2 fun _ => true) : M Unit) 0) = true := by
  decide +kernel

/-- An export on rank 0 of four and the release of everything. -/
example : Res.okAnd (fun r => decide (r.2.card = 1 + 2)) (letI := exTop; (do
      let A ← newDist (denseFmt 2)
      let r ← A.toDense (denseFmt 2) true 4
      freeOpt r
      A.deallocate (denseFmt 2) : M Unit) 0) = true := by
  decide +kernel

end Props
end Bml
