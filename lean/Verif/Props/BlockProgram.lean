import Verif.Common.BlockProgram
import Verif.Props.Program
import Verif.Props.Ellblock5
import Verif.Ellblock.Hist

/-!
# Property C81: programs of block-ELLPACK matrices

The block format leaves pointers to unused blocks behind, and later calls can trip over them.
`Spec.stage` says which calls a program may make, from the calls it made before.
-/

namespace Bml.Spec

open History

variable {R : Type} [CommRing R] [DecidableEq R]

/-- What has been done to a variable. -/
inductive Stage where
  /-- made by `bml_zero_matrix` and not written since -/
  | empty
  /-- no unused blocks -/
  | clean
  /-- there may be unused blocks; they can be reused -/
  | roomy
  /-- there may be pointers to blocks that were freed -/
  | plain

/-- After a call that changes the stored blocks only. -/
def Stage.changed : Stage → Stage
  | .empty | .clean => .clean
  | .roomy => .roomy
  | .plain => .plain

/-- After a call that adds blocks; not for a matrix with pointers to freed blocks. -/
def Stage.filled : Stage → Option Stage
  | .plain => none
  | _ => some .roomy

/-- After a product written over the matrix. -/
def Stage.product : Stage → Stage
  | .empty => .clean
  | _ => .plain

/-- The stage of the target after a call; `none`: the program may not make this call.  `bml_set_row`
is left out: it does not clear elements (C54). -/
def stage (u : Nat → Stage) : Cmd R → Option Stage
  | .zero _ => some .empty
  | .identity _ | .copyNew _ _ | .transposeNew _ _ => some .clean
  | .set _ _ _ v =>
    match u v with
    | .empty | .clean => some .clean
    | _ => none
  | .setRow _ _ _ _ => none
  | .setDiagonal _ _ v =>
    match u v with
    | .empty | .clean => some .clean
    | _ => some .plain
  | .scaleInplace _ v | .threshold _ v => some (u v).changed
  | .scale _ v w => if v = w then some (u v).changed else (u w).filled
  | .copy _ w => (u w).filled
  | .add _ _ _ _ v | .addIdentity _ _ v | .scaleAddIdentity _ _ _ v => (u v).filled
  | .multiply _ α β v w r => if v = w ∧ α = 1 ∧ β = 0 then some (u r).product else (u r).filled
  | .square _ _ w => some (u w).product
  | .transpose _ => some .plain

/-- The calls of a program are allowed, one after the other. -/
def staged : List (Stmt R) → (Nat → Stage) → Prop
  | [], _ => True
  | .call c :: cs, u => ∃ st, stage u c = some st ∧ staged cs (upd u c.target st)
  | .ask _ :: cs, u => staged cs u

end Bml.Spec

namespace Bml.Props

open History

variable {R : Type} [CommRing R] [DecidableEq R]

/-- The block sizes in force: `nb` blocks of `s` rows, at most six, and block rows with room for all
of them. -/
structure UniformBlocks (g : EllB.Glob) (N M s : Nat) (b : Arr Nat) : Prop where
  set : g.Set N b
  uniform : ∀ ib, ib < g.nb → b.get ib = s
  pos : 0 < s
  small : s ≤ 6
  wide : g.nb ≤ g.mb
  M_le : M ≤ N

/-- What a stage says about the pointers of a matrix. -/
def AtStage (s : Nat) : Spec.Stage → EllB R → Prop
  | .empty, A => A.Clean ∧ ∀ ib, ib < A.NB → A.nnzb.get ib = 0
  | .clean, A => A.Clean
  | .roomy, A => A.Neat (s * s)
  | .plain, _ => True

/-- `A` was made under the block sizes in force, has the elements `a` and is at stage `st`. -/
structure BlockHolds (g : EllB.Glob) (N M s : Nat) (b : Arr Nat) (A : EllB R) (a : Spec.Mat R)
    (st : Spec.Stage) : Prop where
  rep : A.Represents N a
  M : A.M = M
  NB : A.NB = g.nb
  MB : A.MB = g.mb
  bsize : A.bsize = b
  stage : AtStage s st A

omit [DecidableEq R] in
theorem block_congr {N : Nat} {A : EllB R} {a a' : Spec.Mat R}
    (h : A.Represents N a) (he : Spec.Eq N a a') : A.Represents N a' := by
  obtain ⟨L, h⟩ := EllB.represents_iff.1 h
  exact EllB.represents_iff.2 ⟨L, h.congr he⟩

section
variable {g : EllB.Glob} {N M s : Nat} {b : Arr Nat} {A : EllB R} {a : Spec.Mat R}
  {st : Spec.Stage}

omit [CommRing R] [DecidableEq R] in
theorem neat_iff {A : EllB R} (h0 : 0 < A.NB) (hs : A.ptr.size = A.NB * A.MB)
    (hu : ∀ ib, ib < A.NB → A.bsize.get ib = s) : A.Neat (s * s) ↔ A.Tidy ∧ A.Ample := by
  constructor
  · intro h
    refine ⟨⟨fun k x hk hx => ?_, h.own, h.fresh⟩, ?_⟩
    · obtain ⟨b, h1, -⟩ := h.live k x hk hx
      exact ⟨b, h1⟩
    · intro ib jp jb x b hib hjp hjb hx hb
      obtain ⟨c, h1, h2⟩ := h.live _ x (by rw [hs]; exact addr_lt hib hjp) hx
      rw [hb] at h1
      cases h1
      rw [hu ib hib, hu jb hjb]
      exact h2
  · rintro ⟨h1, h2⟩
    refine ⟨?_, h1.own, h1.fresh⟩
    intro k x hk hx
    obtain ⟨b, hb⟩ := h1.live k x hk hx
    refine ⟨b, hb, ?_⟩
    rw [hs] at hk
    obtain ⟨k1, k2, k3⟩ := EllB.addr_div hk
    rw [← k3] at hx
    have := h2 _ _ 0 x b k1 k2 h0 hx hb
    rwa [hu _ k1, hu 0 h0] at this

omit [DecidableEq R] in
theorem BlockHolds.uniform (h : BlockHolds g N M s b A a st) (hB : UniformBlocks g N M s b) :
    ∀ ib, ib < A.NB → A.bsize.get ib = s := by
  intro ib hib
  rw [h.bsize]
  exact hB.uniform ib (by rw [← h.NB]; exact hib)

omit [DecidableEq R] in
theorem BlockHolds.neat_iff (h : BlockHolds g N M s b A a st) (hB : UniformBlocks g N M s b) :
    A.Neat (s * s) ↔ A.Tidy ∧ A.Ample := by
  obtain ⟨L, hL⟩ := EllB.represents_iff.1 h.rep
  exact Props.neat_iff (by rw [h.NB]; exact hB.set.nb) hL.is.ptr_size (h.uniform hB)

omit [DecidableEq R] in
theorem BlockHolds.neat (h : BlockHolds g N M s b A a st) (hB : UniformBlocks g N M s b)
    (hst : st ≠ .plain) : A.Neat (s * s) := by
  have hc : A.Clean → A.Neat (s * s) := fun hc =>
    (h.neat_iff hB).2 (C62_uniform_room h.rep hc (h.uniform hB))
  cases st with
  | empty => exact hc h.stage.1
  | clean => exact hc h.stage
  | roomy => exact h.stage
  | plain => exact absurd rfl hst

omit [DecidableEq R] in
theorem BlockHolds.changed (h : BlockHolds g N M s b A a st) {A' : EllB R} {a' : Spec.Mat R}
    (hr : A'.Represents N a') (hs : EllB.Same A A') (hc : A.Clean → A'.Clean)
    (hn : ∀ m, A.Neat m → A'.Neat m) : BlockHolds g N M s b A' a' st.changed := by
  refine ⟨hr, hs.M.trans h.M, hs.NB.trans h.NB, hs.MB.trans h.MB, hs.bsize.trans h.bsize, ?_⟩
  cases st with
  | empty => exact hc h.stage.1
  | clean => exact hc h.stage
  | roomy => exact hn _ h.stage
  | plain => trivial

omit [DecidableEq R] in
theorem BlockHolds.same (h : BlockHolds g N M s b A a st) {A' : EllB R} {a' : Spec.Mat R}
    {st' : Spec.Stage} (hr : A'.Represents N a') (hs : EllB.Same A A') (hst : AtStage s st' A') :
    BlockHolds g N M s b A' a' st' :=
  ⟨hr, hs.M.trans h.M, hs.NB.trans h.NB, hs.MB.trans h.MB, hs.bsize.trans h.bsize, hst⟩

omit [DecidableEq R] in
theorem BlockHolds.room (h : BlockHolds g N M s b A a st) (hB : UniformBlocks g N M s b)
    {A' : EllB R} {a' : Spec.Mat R} (hs : EllB.Same A A') (hr : A'.Represents N a') (h1 : A'.Tidy) (h2 : A'.Ample) :
    A'.Neat (s * s) := by
  obtain ⟨L, hL⟩ := EllB.represents_iff.1 hr
  exact (Props.neat_iff (by rw [hs.NB, h.NB]; exact hB.set.nb) hL.is.ptr_size
    (by rw [hs.NB, hs.bsize]; exact h.uniform hB)).2 ⟨h1, h2⟩

omit [DecidableEq R] in
theorem BlockHolds.madeUnder (h : BlockHolds g N M s b A a st) (hB : UniformBlocks g N M s b) :
    MadeUnder g N A := by
  refine ⟨?_, h.NB.symm, h.MB.symm⟩
  rw [h.bsize]
  exact hB.set

omit [DecidableEq R] in
theorem BlockHolds.smallBlocks (h : BlockHolds g N M s b A a st) (hB : UniformBlocks g N M s b) :
    SmallBlocks A := by
  intro ib hib
  rw [h.uniform hB ib hib]
  exact ⟨hB.pos, hB.small⟩

theorem UniformBlocks.N_pos (hB : UniformBlocks g N M s b) : 0 < N := by
  have h1 := hB.set.nb
  have h2 := hB.set.sum
  have h3 : 0 < EllB.off b.get g.nb := by
    have := EllB.off_lt (bs := b.get) (ib := 0) (ii := 0) h1 (by rw [hB.uniform 0 h1]; exact hB.pos)
    omega
  omega

theorem filled_some {u : Spec.Stage} (h : u.filled = some st) : u ≠ .plain ∧ st = .roomy := by
  cases u <;> simp only [Spec.Stage.filled, Option.some.injEq, reduceCtorEq] at h <;>
    exact ⟨by simp, h.symm⟩

omit [DecidableEq R] in
theorem keepOff_zeros {t : R → Bool} (h : ∀ x, t x = false → x = 0) (a : Spec.Mat R) (i j : Nat) :
    Spec.keepOff t a i j = a i j := by
  unfold Spec.keepOff
  split
  · rfl
  · exact keep_zeros h _

/-- A matrix under the block sizes in force, from a new one. -/
theorem UniformBlocks.holds (hB : UniformBlocks g N M s b) {A : EllB R} {a : Spec.Mat R}
    {st : Spec.Stage} (hs : EllB.Same (EllB.empty N M g.nb g.mb ⟨g.nb, b.get⟩ : EllB R) A)
    (hr : A.Represents N a) (hst : AtStage s st A) : BlockHolds g N M s b A a st := by
  refine ⟨hr, hs.M, hs.NB, hs.MB, ?_, hst⟩
  rw [hs.bsize]
  show (⟨g.nb, b.get⟩ : Arr Nat) = b
  rw [← hB.set.size]

theorem UniformBlocks.sizes (hB : UniformBlocks g N M s b) : EllB.getBlockSizes g N M = .ok (g, b) := by
  unfold EllB.getBlockSizes
  rw [hB.set.bsize]

theorem UniformBlocks.zero (hB : UniformBlocks g N M s b) : ∃ A : EllB R,
    EllB.zeroMatrix g N M = .ok (g, A) ∧ BlockHolds g N M s b A (fun _ _ => 0) .empty := by
  obtain ⟨g', b', e, -, eg⟩ := EllB.zeroMatrix_eq (R := R) (hB.set.for M) hB.M_le
  rw [hB.sizes] at eg
  cases eg
  refine ⟨_, e, hB.holds (EllB.Same.refl _) (EllB.represents_iff.2 ⟨_, hB.set.empty_rows M⟩)
    ⟨EllB.empty_clean, fun _ _ => rfl⟩⟩

/-- One call. -/
theorem blk_step (hB : UniformBlocks g N M s b) (c : Cmd R) (ω : BEnv R) (S : Nat → EllB R)
    (sp : Nat → Spec.Mat R) (u : Nat → Spec.Stage)
    (h : ∀ v, BlockHolds g N M s b (S v) (sp v) (u v)) (hl : c.Legal N) (hω : ω.Valid g.nb)
    (hz : DropsZeros c) (hst : Spec.stage u c = some st) :
    ∃ A, blkValue N M ω g S c = .ok (g, A) ∧
      BlockHolds g N M s b A (Spec.value N (fun t => t) sp c) st := by
  have hN := hB.N_pos
  have hnz : ∀ x : R, decide (x ≠ 0) = false → x = 0 := fun x hx => by simpa using hx
  have hg0 : g.mb ≠ 0 := by have := hB.set.mb; omega
  have hwide : ∀ v, (S v).NB ≤ (S v).MB := fun v => by rw [(h v).NB, (h v).MB]; exact hB.wide
  have hNB : ∀ v, 0 < (S v).NB := fun v => by rw [(h v).NB]; exact hB.set.nb
  have hMB : ∀ v, 0 < (S v).MB := fun v => by rw [(h v).MB]; exact hB.set.mb
  have hM : ∀ v, (S v).M ≤ N := fun v => by rw [(h v).M]; exact hB.M_le
  have hrows : ∀ v, IsSched 0 (S v).NB ω.rows := fun v => by rw [(h v).NB]; exact hω.rows
  have hrows' : ∀ v, IsSched 0 (S v).NB ω.rows' := fun v => by rw [(h v).NB]; exact hω.rows'
  have eNB : ∀ v w, (S v).NB = (S w).NB := fun v w => (h v).NB.trans (h w).NB.symm
  have eMB : ∀ v w, (S v).MB = (S w).MB := fun v w => (h v).MB.trans (h w).MB.symm
  have ebs : ∀ v w, (S v).bsize = (S w).bsize := fun v w => (h v).bsize.trans (h w).bsize.symm
  have hsum : ∀ v, EllB.off (S v).bsize.get (S v).NB = N := fun v => by
    obtain ⟨L, hL⟩ := EllB.represents_iff.1 (h v).rep
    exact hL.N_eq
  -- the room in a target that is not plain
  have hroom : ∀ v, u v ≠ .plain → (S v).Tidy ∧ (S v).Ample := fun v hv =>
    ((h v).neat_iff hB).1 ((h v).neat hB hv)
  -- what a sum leaves
  have hsums : ∀ {v : Nat} {A' : EllB R} {f : Spec.Mat R} {t : R → Bool}, (∀ x, t x = false → x = 0) →
      u v ≠ .plain → EllB.Same (S v) A' → A'.Tidy →
      A'.Represents N (EllB.keepBlk (S v).bsize.get t f) →
      (∀ s, (∀ ib, ib < (S v).NB → (S v).bsize.get ib = s) → (S v).Tidy ∧ (S v).Ample → A'.Ample) →
      BlockHolds g N M s b A' (fun i j => Spec.keep t (f i j)) .roomy := by
    intro v A' f t ht hv hs hT hr ha
    refine (h v).same (block_congr hr fun i j hi hj => ?_) hs
      ((h v).room hB hs hr hT (ha s ((h v).uniform hB) (hroom v hv)))
    rw [keepBlk_exact (hsum v) ht _ i j hi hj, keep_zeros ht]
  -- copies into a matrix
  have hcopy : ∀ v w, u w ≠ .plain → EllB.Room (S v) (S w) := by
    intro v w hw ib jp hib hjp
    obtain ⟨L, hL⟩ := EllB.represents_iff.1 (h v).rep
    obtain ⟨L', hL'⟩ := EllB.represents_iff.1 (h w).rep
    cases hp : (S w).ptr.get (ib * (S v).MB + jp) with
    | none => exact Or.inl rfl
    | some x =>
      right
      rw [hL.is.nz ib hib] at hjp
      have hjM : jp < (S v).MB := by have := hL.is.le ib hib; omega
      obtain ⟨d, h1, h2⟩ := ((h w).neat hB hw).live _ x (by
        rw [hL'.is.ptr_size, eNB w v, eMB w v]; exact addr_lt hib hjM) hp
      refine ⟨x, d, rfl, h1, ?_⟩
      obtain ⟨⟨jb, d'⟩, hx⟩ : ∃ y, (L ib)[jp]? = some y := ⟨_, List.getElem?_eq_getElem hjp⟩
      rw [(hL.is.slot ib jp jb d' hib hx).1, (h v).uniform hB ib hib, (h v).uniform hB jb
        ((hL.good ib hib).lt (jb, d') (List.mem_of_getElem? hx))]
      exact h2
  have hblk : ∀ v ib jb, ib < (S v).NB → jb < (S v).NB →
      s * s ≤ (S v).bsize.get ib * (S v).bsize.get jb := fun v ib jb h1 h2 => by
    rw [(h v).uniform hB ib h1, (h v).uniform hB jb h2]
  -- squares
  have hsquare : ∀ v w (t : R → Bool), (∀ x, t x = false → x = 0) → ∃ A x y,
      EllB.multiplyX2 ω.rows t ω.vals (S v) (S w) = .ok (A, x, y) ∧
      BlockHolds g N M s b A (Spec.keepOff t (Spec.mul N (sp v) (sp v))) (u w).product := by
    intro v w t ht
    obtain ⟨L, hL⟩ := EllB.represents_iff.1 (h v).rep
    obtain ⟨L', hL'⟩ := EllB.represents_iff.1 (h w).rep
    obtain ⟨⟨A, x, y⟩, e, h1, -, -, -, LC, h2, -, h3⟩ := Res.wp_exists (hL.wp_multiplyX2 (E := False)
      hL'.is hL'.dim (eNB w v) (eMB w v) (ebs w v) ((h v).smallBlocks hB) (hrows v) t ω.vals (by
        rintro ⟨ib, h1, h2⟩
        have := (mulCols_fit hL hL rfl _).1 (prodFit_of_le (hwide v)) ib h1
        omega))
    simp only at h1 h2 h3
    refine ⟨A, x, y, e, (h w).same (block_congr (EllB.represents_iff.2 ⟨LC, h2⟩) fun i j hi hj => ?_) h1 ?_⟩
    · rw [keepProd_exact (hsum v) ht _ i j hi hj, keepOff_zeros ht]
    · have hw := (h w).stage
      cases hu : u w with
      | empty =>
        rw [hu] at hw
        refine h3 hw.1 fun ib hib => ?_
        have := hw.2 ib (by rw [eNB w v]; exact hib)
        rw [hL'.is.nz ib (by rw [eNB w v]; exact hib)] at this
        exact List.eq_nil_of_length_eq_zero this
      | clean => trivial
      | roomy => trivial
      | plain => trivial
  cases c with
  | zero v =>
    cases hst
    exact hB.zero
  | identity v =>
    cases hst
    obtain ⟨⟨g', A⟩, e, L, b', eg, -, h1, h2, h3⟩ := Res.wp_exists (EllB.wp_identityMatrix (R := R)
      (E := False) (hB.set.for M) hB.M_le)
    rw [hB.sizes] at eg
    cases eg
    exact ⟨A, e, hB.holds h3 (EllB.represents_iff.2 ⟨L, h1⟩) h2⟩
  | set i j x v =>
    have hcl : (S v).Clean ∧ st = .clean := by
      have hv := (h v).stage
      simp only [Spec.stage] at hst
      cases hu : u v with
      | empty => rw [hu] at hst hv; cases hst; exact ⟨hv.1, rfl⟩
      | clean => rw [hu] at hst hv; cases hst; exact ⟨hv, rfl⟩
      | roomy => rw [hu] at hst; cases hst
      | plain => rw [hu] at hst; cases hst
    obtain ⟨hc, rfl⟩ := hcl
    obtain ⟨L, hL⟩ := EllB.represents_iff.1 (h v).rep
    obtain ⟨ib, ii, i1, i2, rfl⟩ := EllB.off_surj (S v).bsize.get (S v).NB i (by rw [hsum]; exact hl.1)
    obtain ⟨jb, jj, j1, j2, rfl⟩ := EllB.off_surj (S v).bsize.get (S v).NB j (by rw [hsum]; exact hl.2)
    obtain ⟨A', e, L', hw⟩ := Res.wp_exists (Res.wp_mono' (E' := False)
      (hL.wp_setElement i1 j1 i2 j2 x) (by
        rintro ⟨h1, h2⟩
        have := hL.card_le i1 (hwide v) j1 h1
        rcases h2 with h2 | h2
        · omega
        · exact h2 hc) (fun _ hq => hq))
    refine ⟨A', ?_, (h v).same (EllB.represents_iff.2 ⟨L', hw.rows⟩) hw.same (hw.clean hc)⟩
    simp only [blkValue]
    rw [e]
    rfl
  | setRow t i row v => cases hst
  | setDiagonal t d v =>
    obtain ⟨L, hL⟩ := EllB.represents_iff.1 (h v).rep
    obtain ⟨A', e, L', h1, h2, h3⟩ := Res.wp_exists (hL.wp_setDiagonal (E := False) t hl (by
      intro ib hib _
      by_cases hh : (S v).Has ib ib
      · exact Or.inl hh
      · right
        rw [hL.is.nz ib hib]
        exact hL.card_le hib (hwide v) hib fun hm => hh ((hL.has_iff hib).2 hm)))
    refine ⟨A', by simp only [blkValue]; rw [e]; rfl, ?_⟩
    have hr : A'.Represents N (Spec.value N (fun t => t) sp (.setDiagonal t d v)) := by
      refine block_congr (EllB.represents_iff.2 ⟨L', h1⟩) fun i j hi hj => ?_
      simp only [Spec.value, EllB.diagSpec]
      by_cases hij : i = j
      · subst hij
        rw [if_pos rfl, if_pos rfl, keep_zeros hz]
        obtain ⟨ib, ii, i1, i2, rfl⟩ := EllB.off_surj (S v).bsize.get (S v).NB i (by rw [hsum]; exact hi)
        split
        · rfl
        · next hn =>
          rw [EllB.diag_iff i2] at hn
          push Not at hn
          exact (hz _ (Bool.eq_false_iff.2 (hn ii i2))).symm
      · rw [if_neg hij, if_neg hij]
    have hv := (h v).stage
    simp only [Spec.stage] at hst
    cases hu : u v with
    | empty => rw [hu] at hst hv; cases hst; exact (h v).same hr h2 (h3 hv.1)
    | clean => rw [hu] at hst hv; cases hst; exact (h v).same hr h2 (h3 hv)
    | roomy => rw [hu] at hst; cases hst; exact (h v).same hr h2 trivial
    | plain => rw [hu] at hst; cases hst; exact (h v).same hr h2 trivial
  | copyNew v w =>
    cases hst
    obtain ⟨L, hL⟩ := EllB.represents_iff.1 (h v).rep
    obtain ⟨⟨g', A⟩, e, h1, L', h2, h3, h4, -⟩ := Res.wp_exists (hL.wp_copyMatrix (E := False) (hMB v)
      (hM v) (hNB v) (fun ib hib => by
        rw [(h v).uniform hB ib hib]; have := hB.small; have := hB.pos; omega) hg0 (hrows v))
    simp only at h1 h2 h3 h4
    subst h1
    exact ⟨A, e, (h v).same (EllB.represents_iff.2 ⟨L', h2⟩) h4 h3⟩
  | copy v w =>
    obtain ⟨hp, rfl⟩ := filled_some hst
    obtain ⟨L, hL⟩ := EllB.represents_iff.1 (h v).rep
    obtain ⟨L', hL'⟩ := EllB.represents_iff.1 (h w).rep
    obtain ⟨A', e, L2, h1, -, h3, -, h4⟩ := Res.wp_exists (hL.wp_copyInto (E := False) (hroom w hp).1
      (eNB w v) (eMB w v) (ebs w v) hL'.dim (by rw [hL'.is.nz_size, eNB w v])
      (by rw [hL'.is.ix_size, eNB w v, eMB w v]) (by rw [hL'.is.ptr_size, eNB w v, eMB w v])
      (hcopy v w hp) (hrows v) ω.vals)
    exact ⟨A', by simp only [blkValue]; rw [e]; rfl, (h w).same (EllB.represents_iff.2 ⟨L2, h1⟩) h3
      (h4 _ (hblk v) ((h w).neat hB hp))⟩
  | scaleInplace c v =>
    cases hst
    obtain ⟨L, hL⟩ := EllB.represents_iff.1 (h v).rep
    obtain ⟨A', e, L', h1, h2, h3, -, h4⟩ := Res.wp_exists (hL.wp_scaleInplace (E := False) c)
    exact ⟨A', by simp only [blkValue]; rw [e]; rfl,
      (h v).changed (EllB.represents_iff.2 ⟨L', h1⟩) h2 h3 h4⟩
  | scale c v w =>
    simp only [Spec.stage] at hst
    obtain ⟨L, hL⟩ := EllB.represents_iff.1 (h v).rep
    by_cases hvw : v = w
    · subst hvw
      rw [if_pos rfl] at hst
      cases hst
      obtain ⟨A', e, L', h1, h2, h3, -, h4⟩ := Res.wp_exists (hL.wp_scaleInplace (E := False) c)
      exact ⟨A', by simp only [blkValue]; rw [if_pos trivial, e]; rfl,
        (h v).changed (EllB.represents_iff.2 ⟨L', h1⟩) h2 h3 h4⟩
    · rw [if_neg hvw] at hst
      obtain ⟨hp, rfl⟩ := filled_some hst
      obtain ⟨L', hL'⟩ := EllB.represents_iff.1 (h w).rep
      obtain ⟨A', e, L2, h1, h3, h4⟩ := Res.wp_exists (hL.wp_scaleInto (E := False) (hroom w hp).1
        (eNB w v) (eMB w v) (ebs w v) hL'.dim (by rw [hL'.is.nz_size, eNB w v])
        (by rw [hL'.is.ix_size, eNB w v, eMB w v]) (by rw [hL'.is.ptr_size, eNB w v, eMB w v])
        (hcopy v w hp) (hrows v) ω.vals c)
      exact ⟨A', by simp only [blkValue]; rw [if_neg hvw, e]; rfl,
        (h w).same (EllB.represents_iff.2 ⟨L2, h1⟩) h3 (h4 _ (hblk v) ((h w).neat hB hp))⟩
  | add t α β w v =>
    obtain ⟨hp, rfl⟩ := filled_some hst
    obtain ⟨A', e, q1, q2, q3, -, q4⟩ := C62_add_partial (h v).rep (h w).rep (eNB w v) (eMB w v)
      (ebs w v) (hNB v) (hrows v) hnz t ω.vals α β (EllB.blocksFit_of_le (hwide v) _)
      (Or.inl (hroom v hp))
    exact ⟨A', by simp only [blkValue]; rw [e]; rfl, hsums hz hp q1 q2 q3 q4⟩
  | addIdentity t β v =>
    obtain ⟨hp, rfl⟩ := filled_some hst
    obtain ⟨A', e, q1, q2, q3, -, q4⟩ := C62_add_identity_partial (h v).rep hN ((h v).madeUnder hB)
      (hrows v) hnz t ω.vals β (EllB.blocksFit_of_le (hwide v) _) (Or.inl (hroom v hp))
    exact ⟨A', e, hsums hz hp q1 q2 q3 q4⟩
  | scaleAddIdentity t α β v =>
    obtain ⟨hp, rfl⟩ := filled_some hst
    obtain ⟨L, hL⟩ := EllB.represents_iff.1 (h v).rep
    obtain ⟨A1, e1, L1, h1, h2, h3, -, h4⟩ := Res.wp_exists (hL.wp_scaleInplace (E := False) α)
    have hA1 := (h v).same (st' := .roomy) (EllB.represents_iff.2 ⟨L1, h1⟩) h2
      (h4 _ ((h v).neat hB hp))
    have hr1 := (hA1.neat_iff hB).1 hA1.stage
    obtain ⟨A', e, q1, q2, q3, -, q4⟩ := C62_add_identity_partial hA1.rep hN (hA1.madeUnder hB)
      (sc := ω.rows) (by rw [hA1.NB]; exact hω.rows) hnz t ω.vals β
      (EllB.blocksFit_of_le (by rw [hA1.NB, hA1.MB]; exact hB.wide) _) (Or.inl hr1)
    refine ⟨A', ?_, hsums hz hp (h2.trans q1) q2 (by rw [← h2.bsize]; exact q3)
      fun s' _ _ => q4 s (hA1.uniform hB) hr1⟩
    simp only [blkValue, EllB.scaleAddIdentity]
    rw [e1, Res.bind_ok]
    exact e
  | threshold t v =>
    cases hst
    obtain ⟨L, hL⟩ := EllB.represents_iff.1 (h v).rep
    obtain ⟨A', e, ⟨L', h1, -⟩, h2, h3, h4⟩ := Res.wp_exists (hL.wp_threshold (E := False) t)
    exact ⟨A', by simp only [blkValue]; rw [e]; rfl,
      (h v).changed (EllB.represents_iff.2 ⟨L', h1⟩) h2 h3 h4⟩
  | multiply t α β v w r =>
    simp only [Spec.stage] at hst
    by_cases hvw : v = w
    · subst hvw
      by_cases h1 : α = 1 ∧ β = 0
      · rw [if_pos ⟨rfl, h1⟩] at hst
        cases hst
        obtain ⟨A, x, y, e, hA⟩ := hsquare v r t hz
        refine ⟨A, ?_, ?_⟩
        · simp only [blkValue, EllB.multiplySame]
          rw [if_pos trivial, if_pos (by simpa using h1), e]
          rfl
        · have : Spec.value N (fun t => t) sp (.multiply t α β v v r) =
              Spec.keepOff t (Spec.mul N (sp v) (sp v)) := by
            funext i j
            simp only [Spec.value]
            rw [if_pos ⟨trivial, h1⟩]
          rw [this]
          exact hA
      · rw [if_neg (fun hh => h1 hh.2)] at hst
        obtain ⟨hp, rfl⟩ := filled_some hst
        obtain ⟨A', e, q1, q2, q3, q4⟩ := C63_multiply_same_general_partial (h v).rep (h r).rep (eNB r v)
          (eMB r v) (ebs r v) ((h v).smallBlocks hB) (hNB r) (hMB r) (hM r) hg0 (hrows v) (hrows' v) hnz t
          (isOne := fun x => decide (x = 1)) (isZero := fun x => decide (x = 0)) ω.vals (α := α) (β := β)
          (by simpa using h1) (prodFit_of_le (hwide v)) (EllB.blocksFit_of_le (hwide r) _)
          (Or.inl (hroom r hp))
        refine ⟨A', by simp only [blkValue]; rw [if_pos trivial, e], ?_⟩
        rw [ebs v r] at q3
        have hr := hsums hz hp q1 q2 q3 q4
        refine (h r).same (block_congr hr.rep fun i j hi hj => ?_) q1 hr.stage
        simp only [Spec.value]
        rw [if_neg (fun hh => h1 hh.2), keepProd_exact (hsum r) hz _ i j hi hj, keepOff_zeros hz]
    · rw [if_neg (fun hh => hvw hh.1)] at hst
      obtain ⟨hp, rfl⟩ := filled_some hst
      obtain ⟨A', e, q1, q2, q3⟩ := C63_multiply_room_partial (h v).rep (h w).rep (h r).rep (eNB w v)
        (ebs w v) (eNB r v) (ebs r v) ((h v).smallBlocks hB) ((h v).uniform hB) (hroom r hp) (hNB r)
        (hwide r) (hM r) hg0 (hrows v) (hrows' v) hnz hz ω.vals α β
      refine ⟨A', by simp only [blkValue]; rw [if_neg hvw, e], (h r).same (block_congr q3
        fun i j hi hj => ?_) q1 ((h r).room hB q1 q3 q2.1 q2.2)⟩
      simp only [Spec.value]
      rw [if_neg (fun hh => hvw hh.1), keep_zeros hz, keepOff_zeros hz]
      ring
  | square t v w =>
    cases hst
    obtain ⟨A, x, y, e, hA⟩ := hsquare v w t hz
    exact ⟨A, by simp only [blkValue]; rw [e]; rfl, hA⟩
  | transpose v =>
    cases hst
    obtain ⟨A', e, h1, h2, -⟩ := C64_transpose_partial (h v).rep (colsFit_of_le (hwide v)).2 ω.vals
    exact ⟨A', by simp only [blkValue]; rw [e]; rfl, (h v).same h2 h1 trivial⟩
  | transposeNew v w =>
    cases hst
    obtain ⟨A', e, h1, h2, h3, -⟩ := C64_transpose_new_partial (h v).rep (hMB v) (hM v) (hNB v)
      (fun ib hib => by rw [(h v).uniform hB ib hib]; have := hB.small; omega) hg0 ω.vals
      (colsFit_of_le (hwide v)).1
    exact ⟨A', e, (h v).same h3 h1 h2⟩

/-- One question. -/
theorem blk_ask (hB : UniformBlocks g N M s b) (q : Ask) (S : Nat → EllB R) (sp : Nat → Spec.Mat R)
    (u : Nat → Spec.Stage) (h : ∀ v, BlockHolds g N M s b (S v) (sp v) (u v)) (hl : q.Legal N) :
    blkAsk N S q = .ok (Spec.answer N sp q) := by
  cases q with
  | element i j v => simp only [blkAsk]; rw [(h v).rep.get i j hl.1 hl.2]; rfl
  | row i v =>
    obtain ⟨r, e, h1, h2⟩ := C54_get_row (h v).rep hl
    simp only [blkAsk]; rw [e, Res.bind_ok, elems_eq h1 h2]; rfl
  | diagonal v =>
    obtain ⟨r, e, h1, h2⟩ := C54_get_diagonal (h v).rep
    simp only [blkAsk]; rw [e, Res.bind_ok, elems_eq h1 h2]; rfl
  | trace v => simp only [blkAsk]; rw [C59_trace (h v).rep]; rfl
  | sumSquares v => simp only [blkAsk]; rw [C59_sum_squares (h v).rep]; rfl
  | dense o v =>
    obtain ⟨D, e, h1, h2⟩ := C55_export (h v).rep hB.N_pos (fun ib hib => ((h v).smallBlocks hB ib hib).1)
      (addr := fun i j => o.addr i j N) (by cases o <;> [exact Or.inl rfl; exact Or.inr rfl])
    simp only [blkAsk]; rw [e, Res.bind_ok, elems_dense rfl h1 h2]; rfl

end

/-- `p` is a run of the program `cs`: the same statements, with environments that play by the
rules. -/
def BRunOf (nb : Nat) (cs : List (Stmt R)) (p : List (Stmt R × BEnv R)) : Prop :=
  p.map Prod.fst = cs ∧ ∀ c ∈ p, c.2.Valid nb

/-- Programs from any state. -/
theorem blk_program {g : EllB.Glob} {N M s : Nat} {b : Arr Nat} (hB : UniformBlocks g N M s b) :
    ∀ (p : List (Stmt R × BEnv R)) (cs : List (Stmt R)) (S : Nat → EllB R) (sp : Nat → Spec.Mat R)
      (u : Nat → Spec.Stage), (∀ v, BlockHolds g N M s b (S v) (sp v) (u v)) → BRunOf g.nb cs p →
      (∀ c ∈ cs, Stmt.Legal N c) → (∀ c, .call c ∈ cs → DropsZeros c) → Spec.staged cs u →
      blkOutputs N M p g S = .ok (Spec.outputs N (fun t => t) cs sp) := by
  intro p
  induction p with
  | nil =>
    intro cs S sp u h hr hl hz hs
    obtain ⟨rfl, -⟩ := hr
    rfl
  | cons c p ih =>
    intro cs S sp u h hr hl hz hs
    obtain ⟨c, ω⟩ := c
    obtain ⟨rfl, hv⟩ := hr
    have hω := hv _ List.mem_cons_self
    have hrest : BRunOf g.nb (p.map Prod.fst) p := ⟨rfl, fun c hc => hv c (List.mem_cons_of_mem _ hc)⟩
    have hl' : ∀ c ∈ p.map Prod.fst, Stmt.Legal N c := fun c hc => hl c (List.mem_cons_of_mem _ hc)
    have hz' : ∀ c, .call c ∈ p.map Prod.fst → DropsZeros c := fun c hc => hz c (List.mem_cons_of_mem _ hc)
    cases c with
    | call c =>
      obtain ⟨st, h1, h2⟩ := hs
      obtain ⟨A, e, hA⟩ := blk_step hB c ω S sp u h (hl _ List.mem_cons_self) hω
        (hz _ List.mem_cons_self) h1
      have := ih _ (upd S c.target A) (upd sp c.target (Spec.value N (fun t => t) sp c))
        (upd u c.target st) (fun v => by
          by_cases hv : v = c.target
          · subst hv; rw [upd_same, upd_same, upd_same]; exact hA
          · rw [upd_ne _ _ hv, upd_ne _ _ hv, upd_ne _ _ hv]; exact h v) hrest hl' hz' h2
      show (blkValue N M ω g S c >>= fun r => blkOutputs N M p r.1 (upd S c.target r.2)) = _
      rw [e, Res.bind_ok, this]
      rfl
    | ask q =>
      have h1 := blk_ask hB q S sp u h (hl _ List.mem_cons_self)
      have h2 := ih _ S sp u h hrest hl' hz' hs
      show (blkAsk N S q >>= fun x => blkOutputs N M p g S >>= fun xs => pure (x :: xs)) = _
      rw [h1, Res.bind_ok, h2]
      rfl

/-! ## C81 -/

/-- **C81**: a block-ELLPACK program of any length that starts from zero matrices, makes the calls
`Spec.stage` allows and whose arithmetic thresholds drop only zeros gets the answers of the
specification: on every schedule of the threads, and whatever the fresh memory contains. -/
theorem C81_programs {g : EllB.Glob} {N M s : Nat} {b : Arr Nat} (hB : UniformBlocks g N M s b)
    {cs : List (Stmt R)} {p : List (Stmt R × BEnv R)} (hp : BRunOf g.nb cs p)
    (hl : ∀ c ∈ cs, Stmt.Legal N c) (hz : ∀ c, .call c ∈ cs → DropsZeros c)
    (hs : Spec.staged cs fun _ => .empty) {Z : EllB R} (hZ : EllB.zeroMatrix g N M = .ok (g, Z)) :
    blkOutputs N M p g (fun _ => Z) = .ok (Spec.outputs N (fun t => t) cs fun _ => Spec.zero) := by
  obtain ⟨A, e, hA⟩ := hB.zero (R := R)
  rw [hZ] at e
  cases e
  exact blk_program hB p cs _ _ _ (fun _ => hA) hp hl hz hs

/-- **C81**, the first matrix of a process: unless the program sets other block sizes, a matrix of
`N` rows has blocks of four rows.  They are all of one size if four divides `N`, and the block rows
have room for all blocks if `M = N` or `N ≤ 16`. -/
theorem C81_default_blocks {N M : Nat} (h4 : 4 ∣ N) (h0 : 0 < M) (hM : M ≤ N) (hw : N ≤ M ∨ N ≤ 16) :
    ∃ g b, UniformBlocks g N M 4 b ∧ g.nb = N / 4 ∧ ∃ Z : EllB R,
      EllB.zeroMatrix EllB.Glob.init N M = .ok (g, Z) ∧ EllB.zeroMatrix g N M = .ok (g, Z) := by
  obtain ⟨g, b, e, hs, eg⟩ := EllB.zeroMatrix_eq (R := R) (g := EllB.Glob.init) (N := N) (M := M)
    (Or.inl ⟨rfl, h0⟩) hM
  have hB : UniformBlocks g N M 4 b ∧ g.nb = N / 4 := by
    unfold EllB.getBlockSizes at eg
    simp only [EllB.Glob.init] at eg
    rw [if_neg (by omega), if_neg (by split <;> omega)] at eg
    cases eg
    refine ⟨⟨hs, ?_, by omega, by omega, ?_, hM⟩, ?_⟩
    · intro ib hib
      simp only at hib ⊢
      rw [if_neg (show ¬ N / 4 * 4 < N by omega)] at hib ⊢
      split <;> omega
    · simp only
      repeat' split
      all_goals omega
    · simp only
      rw [if_neg (show ¬ N / 4 * 4 < N by omega)]
  refine ⟨g, b, hB.1, hB.2, _, e, ?_⟩
  obtain ⟨A, e', hA⟩ := hB.1.zero (R := R)
  obtain ⟨g', b', e2, hs', eg'⟩ := EllB.zeroMatrix_eq (R := R) (hB.1.set.for M) hM
  rw [hB.1.sizes] at eg'
  cases eg'
  exact e2

/-- **C81**, the same for a whole process, from its start. -/
theorem C81_process {N M : Nat} (h4 : 4 ∣ N) (h0 : 0 < M) (hM : M ≤ N) (hw : N ≤ M ∨ N ≤ 16)
    {cs : List (Stmt R)} {p : List (Stmt R × BEnv R)} (hp : BRunOf (N / 4) cs p)
    (hl : ∀ c ∈ cs, Stmt.Legal N c) (hz : ∀ c, .call c ∈ cs → DropsZeros c)
    (hs : Spec.staged cs fun _ => .empty) :
    ∃ g Z, EllB.zeroMatrix EllB.Glob.init N M = .ok (g, Z) ∧
      blkOutputs N M p g (fun _ => Z) = .ok (Spec.outputs N (fun t => t) cs fun _ => Spec.zero) := by
  obtain ⟨g, b, hB, hnb, Z, e1, e2⟩ := C81_default_blocks (R := R) h4 h0 hM hw
  exact ⟨g, Z, e1, C81_programs hB (by rw [hnb]; exact hp) hl hz hs e2⟩

/-- **C81**, the same after `bml_set_block_sizes` with `nb` blocks of `s ≤ 6` rows. -/
theorem C81_chosen_blocks {nb mb s : Nat} (hs : 0 < s) (h6 : s ≤ 6) (hnb : 0 < nb) (hmb : nb ≤ mb)
    {bs : Arr Nat} (hsz : nb ≤ bs.size) (hbs : ∀ ib, ib < nb → bs.get ib = s) {M : Nat}
    (hM : M ≤ nb * s) : ∃ g b, EllB.setBlockSizes EllB.Glob.init bs nb mb = .ok g ∧ g.nb = nb ∧
      UniformBlocks g (nb * s) M s b := by
  obtain ⟨b, e, hb1, hb2⟩ : ∃ b, EllB.copyNew nb bs = .ok b ∧ b.size = nb ∧
      ∀ k, k < nb → b.get k = bs.get k := ⟨_, if_pos hsz, rfl, fun _ _ => rfl⟩
  refine ⟨⟨some b, nb, mb⟩, b, ?_, rfl, ⟨⟨rfl, hb1, hnb, by show 0 < mb; omega, fun ib hib => ?_, ?_⟩,
    fun ib hib => ?_, hs, h6, hmb, hM⟩⟩
  · unfold EllB.setBlockSizes
    rw [if_neg (by omega), if_neg (by omega), if_neg (by decide), e]
    rfl
  · rw [hb2 ib hib, hbs ib hib]; omega
  · show EllB.off b.get nb = nb * s
    unfold EllB.off
    rw [Finset.sum_congr rfl fun ib hib => (hb2 ib (Finset.mem_range.1 hib)).trans
      (hbs ib (Finset.mem_range.1 hib)), Finset.sum_const, Finset.card_range, smul_eq_mul]
  · rw [hb2 ib hib, hbs ib hib]

/-- **C81**, all formats: such a program gets the same answers from block-ELLPACK, dense and CSR
matrices, and from ELLPACK matrices if it does not call `bml_set_element`. -/
theorem C81_formats_agree {g : EllB.Glob} {N M s M' M'' : Nat} {b : Arr Nat}
    (hB : UniformBlocks g N M s b) (hM' : N ≤ M' ∨ N ≤ 10) (hN' : N ≤ 174762) (hM'' : N ≤ M'')
    {cs : List (Stmt R)} (hl : ∀ c ∈ cs, Stmt.Legal N c) (hz : ∀ c, .call c ∈ cs → DropsZeros c)
    (hs : Spec.staged cs fun _ => .empty) {q : List (Stmt R × BEnv R)}
    {p p' p'' : List (Stmt R × Env R)} (hq : BRunOf g.nb cs q) (hp : RunOf N cs p)
    (hp' : RunOf N cs p') (hp'' : RunOf N cs p'') {Z : EllB R}
    (hZ : EllB.zeroMatrix g N M = .ok (g, Z)) :
    ∃ out, blkOutputs N M q g (fun _ => Z) = .ok out ∧
      outputs (denseValue N) denseAsk p (fun _ => Dense.zeroMatrix N) = .ok out ∧
      outputs (csrValue N M') csrAsk p' (fun _ => Csr.newZero N M') = .ok out ∧
      ((∀ c, .call c ∈ cs → NotSet c) →
        outputs (ellValue N M'') ellAsk p'' (fun _ => Ell.zeroMatrix N M'') = .ok out) := by
  have e := outputs_eff (N := N) hz fun _ => Spec.zero
  have hN := hB.N_pos
  refine ⟨_, C81_programs hB hq hl hz hs hZ, ?_, ?_, fun hn => ?_⟩
  · rw [← e]; exact C79_dense hN hp hl fun _ => C32_dense_zero N
  · exact C79_csr hM' hN' hp' hl fun _ =>
      ⟨⟨rfl, fun _ _ => by show N ≤ max M' 10; omega⟩, C32_csr_zero N M'⟩
  · exact C79_ellpack (by omega) hM'' hp'' hl hn fun _ => ⟨rfl, Ell.represents_iff.2 (Ell.zero_rep N M'')⟩

/-! ## Examples -/

/-- Two steps of a purification: `A := I + …`, squares, sums and traces. -/
def exBStmts : List (Stmt Int) :=
  [.call (.identity 0), .call (.set 1 6 2 0), .call (.set 6 1 (-1) 0), .ask (.row 1 0),
    .call (.square nzInt 0 1), .ask (.trace 1), .call (.set 7 0 5 1), .call (.add nzInt 2 (-1) 1 0),
    .ask (.sumSquares 0), .call (.threshold exBig 0), .call (.addIdentity nzInt 3 0),
    .call (.copyNew 0 2), .call (.multiply nzInt 2 1 0 1 2), .call (.transpose 1),
    .call (.copy 1 0), .ask (.diagonal 2), .ask (.element 0 7 0)]

theorem exBStmts_staged : Spec.staged exBStmts fun _ => .empty := by
  unfold exBStmts
  repeat' first
    | trivial
    | refine ⟨_, rfl, ?_⟩
    | show Spec.staged _ _

theorem exBStmts_legal : ∀ c ∈ exBStmts, Stmt.Legal 8 c := by
  intro c hc
  fin_cases hc <;> simp [Stmt.Legal, Cmd.Legal, Ask.Legal]

theorem exBStmts_zeros : ∀ c, .call c ∈ exBStmts → DropsZeros c := by
  intro c hc
  have : ∀ x : Int, nzInt x = false → x = 0 := fun x h => by simpa [nzInt] using h
  simp only [exBStmts, List.mem_cons, Stmt.call.injEq, List.mem_nil_iff, or_false, reduceCtorEq,
    false_or] at hc
  rcases hc with rfl | rfl | rfl | rfl | rfl | rfl | rfl | rfl | rfl | rfl | rfl | rfl <;>
    first | exact this | trivial

theorem exBStmts_run : BRunOf 2 exBStmts
    (exBStmts.map fun c => (c, ⟨[(0, 1), (1, 0)], [(1, 0), (0, 1)], fun _ => 77⟩)) :=
  ⟨by simp [exBStmts], fun c hc => by
    obtain ⟨d, -, rfl⟩ := List.mem_map.1 hc
    exact ⟨show List.Perm [1, 0] [0, 1] by decide, show List.Perm [0, 1] [0, 1] by decide⟩⟩

/-- What the program gets: blocks of four rows, two threads, and fresh memory full of 77s. -/
example : ∃ g Z, EllB.zeroMatrix EllB.Glob.init 8 8 = .ok (g, Z) ∧
    blkOutputs 8 8 (exBStmts.map fun c => (c, ⟨[(0, 1), (1, 0)], [(1, 0), (0, 1)], fun _ => 77⟩)) g
      (fun _ => Z) =
      .ok [[0, 1, 0, 0, 0, 0, 2, 0], [4], [49], [9, -6, 9, 9, 9, 9, -6, 9], [5]] := by
  obtain ⟨g, Z, e, h⟩ := C81_process (N := 8) (M := 8) (by decide) (by decide) (by decide) (by decide)
    exBStmts_run exBStmts_legal exBStmts_zeros exBStmts_staged
  exact ⟨g, Z, e, h.trans (by decide +kernel)⟩

/-- The same answers from the other formats. -/
example : ∃ (g : EllB.Glob) (Z : EllB Int) (out : List (List Int)),
    EllB.zeroMatrix EllB.Glob.init 8 8 = .ok (g, Z) ∧
    blkOutputs 8 8 (exBStmts.map fun c => (c, ⟨[(0, 1), (1, 0)], [(1, 0), (0, 1)], fun _ => 77⟩)) g
      (fun _ => Z) = .ok out ∧
    outputs (denseValue 8) denseAsk (exBStmts.map fun c => (c, exEnv 8)) (fun _ => Dense.zeroMatrix 8) =
      .ok out ∧
    outputs (csrValue 8 2) csrAsk (exBStmts.map fun c => (c, exEnv 8)) (fun _ => Csr.newZero 8 2) =
      .ok out := by
  obtain ⟨g, b, hB, h1, Z, h2, h3⟩ := C81_default_blocks (R := Int) (N := 8) (M := 8) (by decide)
    (by decide) (by decide) (by decide)
  have hr : RunOf 8 exBStmts (exBStmts.map fun c => (c, exEnv 8)) :=
    ⟨by simp [exBStmts], fun c hc => by
      obtain ⟨d, -, rfl⟩ := List.mem_map.1 hc; exact exEnv_valid 8⟩
  obtain ⟨out, e1, e2, e3, -⟩ := C81_formats_agree hB (M' := 2) (M'' := 8) (.inr (by decide)) (by decide)
    (by decide) exBStmts_legal exBStmts_zeros exBStmts_staged (by rw [h1]; exact exBStmts_run) hr hr hr h3
  exact ⟨g, Z, out, h2, e1, e2, e3⟩

example : ∃ g b, EllB.setBlockSizes EllB.Glob.init ⟨5, fun _ => 3⟩ 5 5 = .ok g ∧ g.nb = 5 ∧
    UniformBlocks g 15 7 3 b :=
  C81_chosen_blocks (nb := 5) (mb := 5) (s := 3) (bs := ⟨5, fun _ => 3⟩) (M := 7) (by decide) (by decide) (by decide)
    (by decide) (by decide) (fun _ _ => rfl) (by decide)

/-- A call that is not allowed: `bml_set_element` after a sum.  It can go wrong, see
`C62_set_after_add`. -/
example : ¬ Spec.staged (R := Int) [.call (.identity 0), .call (.addIdentity nzInt 1 0), .call (.set 0 0 1 0)]
    fun _ => .empty := by
  rintro ⟨_, h1, _, h2, _, h3, -⟩
  cases h1
  cases h2
  cases h3

end Bml.Props
