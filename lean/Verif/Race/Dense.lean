import Verif.Race.Basic
import Verif.Dense.Rep

/-!
# Parallel loops of the dense format, access by access

The model of `Verif.Race.Basic` for the loops over dense matrices.
-/

namespace Bml
namespace Race

section Direct

variable {Loc : Type} {ty : Loc → Type} [DecidableEq Loc]

/-- The iterations of one thread leave the intended values in their locations. -/
theorem forL_target {own : Nat → Loc → Prop} {ro : Loc → Prop} {body : Nat → Unit → Prog ty Unit}
    {m0 target : Mem ty} (hd : ∀ i j l, i ≠ j → own i l → ¬ own j l) (is : List Nat)
    (hb : ∀ i ∈ is, ∀ m, (∀ l, (∀ j, j ≠ i → ¬ own j l) → m l = m0 l) →
      (body i ()).wp (own i) ro m fun _ m' => ∀ l, own i l → m' l = target l)
    (hn : is.Nodup) (m : Mem ty)
    (hm : ∀ i ∈ is, ∀ l, (∀ j, j ≠ i → ¬ own j l) → m l = m0 l) :
    (Prog.forL is () body).wp (fun l => ∃ i ∈ is, own i l) ro m fun _ m' =>
      ∀ i ∈ is, ∀ l, own i l → m' l = target l := by
  induction is generalizing m with
  | nil => exact fun i hi => by cases hi
  | cons i is ih =>
    rw [List.nodup_cons] at hn
    show ((body i ()).bind _).wp _ _ _ _
    rw [Prog.wp_bind]
    have h1 := Prog.wp_frame (hb i (by simp) m (hm i (by simp)))
    refine Prog.wp_mono (Prog.wp_own h1 (fun l hl => ⟨i, by simp, hl⟩) fun l hl => .inr hl) ?_
    rintro s' m' ⟨ht, hf⟩
    have h2 := Prog.wp_frame (ih (fun j hj => hb j (by simp [hj])) hn.2 m' (by
      intro j hj l hl
      rw [hf l (hl i (by rintro rfl; exact hn.1 hj))]
      exact hm j (by simp [hj]) l hl))
    refine Prog.wp_mono (Prog.wp_own h2 (fun l hl => ?_) fun l hl => .inr hl) ?_
    · obtain ⟨j, hj, hl⟩ := hl
      exact ⟨j, by simp [hj], hl⟩
    · rintro _ m'' ⟨h3, h4⟩ j hj l hl
      rcases List.mem_cons.1 hj with rfl | hj
      · rw [h4 l, ht l hl]
        rintro ⟨k, hk, hkl⟩
        exact hd k j l (by rintro rfl; exact hn.1 hk) hkl hl
      · exact h3 j hj l hl

/-- The same for a loop inside an iteration. -/
theorem loop_target {own : Nat → Loc → Prop} {ro : Loc → Prop} {f : Nat → Unit → Prog ty Unit}
    {m0 target : Mem ty} (hd : ∀ i j l, i ≠ j → own i l → ¬ own j l) (n : Nat)
    (hb : ∀ k, k < n → ∀ m, (∀ l, (∀ j, j ≠ k → ¬ own j l) → m l = m0 l) →
      (f k ()).wp (own k) ro m fun _ m' => ∀ l, own k l → m' l = target l) :
    (Prog.loop n () f).wp (fun l => ∃ k, k < n ∧ own k l) ro m0 fun _ m' =>
      ∀ k, k < n → ∀ l, own k l → m' l = target l := by
  refine Prog.wp_mono (Prog.wp_loop (fun k _ m => (∀ k', k' < k → ∀ l, own k' l → m l = target l) ∧
    ∀ l, (∀ k', k' < k → ¬ own k' l) → m l = m0 l) ⟨fun k h => by omega, fun _ _ => rfl⟩ ?_)
    fun _ m' h => h.1
  rintro k hk ⟨⟩ m ⟨h1, h2⟩
  have h3 := Prog.wp_frame (hb k hk m fun l hl => h2 l fun k' hk' => hl k' (by omega))
  refine Prog.wp_mono (Prog.wp_own h3 (fun l hl => ⟨k, hk, hl⟩) fun l hl => .inr hl) ?_
  rintro _ m' ⟨h4, h5⟩
  refine ⟨fun k' hk' l hl => ?_, fun l hl => ?_⟩
  · by_cases c : k' = k
    · subst c
      exact h4 l hl
    · rw [h5 l (hd k' k l c hl)]
      exact h1 k' (by omega) l hl
  · rw [h5 l (hl k (by omega))]
    exact h2 l fun k' hk' => hl k' (by omega)

theorem threads_bound (sc : Sched) : ∃ T, ∀ ti ∈ sc, ti.1 < T := by
  induction sc with
  | nil => exact ⟨0, by simp⟩
  | cons ti sc ih =>
    obtain ⟨T, hT⟩ := ih
    refine ⟨max T (ti.1 + 1), fun tj hj => ?_⟩
    rcases List.mem_cons.1 hj with e | e
    · subst e
      omega
    · have := hT tj e
      omega

/-- A parallel loop whose iterations have locations of their own, and leave the intended values there. -/
theorem Team.direct {own : Nat → Loc → Prop} {ro : Loc → Prop} {body : Nat → Unit → Prog ty Unit}
    {m0 target : Mem ty} {inb : Loc → Bool} {sc : Sched} (hd : ∀ i j l, i ≠ j → own i l → ¬ own j l)
    (hr : ∀ i l, ro l → ¬ own i l) (hi : ∀ i, (∃ t, (t, i) ∈ sc) → ∀ l, own i l → inb l = true)
    (hi' : ∀ l, ro l → inb l = true) (hn : (sc.map fun ti => ti.2).Nodup)
    (hb : ∀ i, (∃ t, (t, i) ∈ sc) → ∀ m, (∀ l, (∀ j, j ≠ i → ¬ own j l) → m l = m0 l) →
      (body i ()).wp (own i) ro m fun _ m' => ∀ l, own i l → m' l = target l) :
    (Team.start m0 () sc body).Safe inb fun m =>
      (∀ i, (∃ t, (t, i) ∈ sc) → ∀ l, own i l → m l = target l) ∧
      ∀ l, (∀ i, (∃ t, (t, i) ∈ sc) → ¬ own i l) → m l = m0 l := by
  let ownT : Nat → Loc → Prop := fun t l => ∃ i ∈ its sc t, own i l
  let Q : Nat → Unit → Mem ty → Prop := fun t _ m => ∀ i ∈ its sc t, ∀ l, own i l → m l = target l
  have hdT : ∀ t t' l, t ≠ t' → ownT t l → ¬ ownT t' l := by
    rintro t t' l hne ⟨i, hi, hil⟩ ⟨i', hi', hil'⟩
    refine hd i i' l ?_ hil hil'
    rintro rfl
    exact hne (thread_unique hn (mem_its.1 hi) (mem_its.1 hi'))
  have hrT : ∀ t l, ro l → ¬ ownT t l := fun t l hl ⟨i, _, hil⟩ => hr i l hl hil
  have hiT : ∀ t l, ownT t l ∨ ro l → inb l = true := by
    rintro t l (⟨i, hmem, hil⟩ | h)
    · exact hi i ⟨t, mem_its.1 hmem⟩ l hil
    · exact hi' l h
  have hQ : ∀ t (a : Unit) (n n' : Mem ty), (∀ l, ownT t l ∨ ro l → n l = n' l) → Q t a n → Q t a n' := by
    intro t a n n' h hq i hi l hl
    rw [← h l (.inl ⟨i, hi, hl⟩)]
    exact hq i hi l hl
  have hA : (start m0 () sc body).Apart ownT ro Q := fun t =>
    forL_target hd (its sc t) (fun i hi => hb i ⟨t, mem_its.1 hi⟩) (nodup_its hn t) m0 fun _ _ _ _ => rfl
  obtain ⟨T, hT⟩ := threads_bound sc
  refine ⟨fun cs => ?_, fun cs => ?_, ⟨_, fun cs => moves_le hdT hrT hQ hA (T := T) ?_ cs⟩, fun cs => ?_,
    fun cs hf => ?_⟩
  · exact (apart_sound hdT hrT hiT (apart_exec hdT hrT hQ hA cs).1).1
  · exact (apart_sound hdT hrT hiT (apart_exec hdT hrT hQ hA cs).1).2
  · intro t ht
    have : its sc t = [] := by
      rw [List.eq_nil_iff_forall_not_mem]
      intro i hi
      have := hT _ (mem_its.1 hi)
      simp only at this
      omega
    show (Prog.forL (its sc t) () body).next = none
    rw [this]
    rfl
  · exact apart_live (apart_exec hdT hrT hQ hA cs).1
  · obtain ⟨h1, h2⟩ := apart_exec hdT hrT hQ hA cs
    refine ⟨fun i ⟨t, ht⟩ l hl => ?_, fun l hl => h2 l ?_⟩
    · obtain ⟨_, hq⟩ := apart_done h1 hf t
      exact hq i (mem_its.2 ht) l hl
    · rintro t ⟨i, hi, hil⟩
      exact hl i ⟨t, mem_its.1 hi⟩ hil

end Direct

/-! ## Dense matrices in memory -/

/-- What a loop over dense matrices shares: cell `p` of matrix `x`, and the variable `temp` of
`bml_fnorm2`. -/
inductive DLoc
  | cell (x p : Nat)
  | temp
  deriving DecidableEq

/-- All of them hold numbers. -/
abbrev dty (R : Type) : DLoc → Type := fun _ => R

/-- The cells of an `N × N` matrix are `N * N` numbers
(`bml_types_dense.h`, 9-27, and `bml_allocate_dense_typed.c`, 83-120). -/
def dinb (N : Nat) : DLoc → Bool
  | .cell _ p => decide (p < N * N)
  | .temp => true

variable {R : Type}

/-- Matrix `x` as the sequential model sees it. -/
def dmat (N : Nat) (m : Mem (dty R)) (x : Nat) : Dense R := ⟨N, ⟨N * N, fun p => m (.cell x p)⟩⟩

/-- Memory with the given matrices. -/
def dmemOf (A : Nat → Dense R) (z : R) : Mem (dty R)
  | .cell x p => (A x).mat.get p
  | .temp => z

/-- One iteration of `bml_threshold_dense`
(`bml_threshold_dense_typed.c`, 110-117).  `big v` stands for `is_above_threshold(v, threshold)`. -/
def dThresholdBody [Zero R] (x : Nat) (big : R → Bool) (p : Nat) (_ : Unit) : Prog (dty R) Unit := do
  let v ← Prog.load (ty := dty R) (.cell x p)
  if big v then pure () else Prog.store (ty := dty R) (.cell x p) (0 : R)

/-- The parallel loop of `bml_threshold_dense` (`bml_threshold_dense_typed.c`, 106-117), one process. -/
def dThresholdTeam [Zero R] (m : Mem (dty R)) (x : Nat) (big : R → Bool) (sc : Sched) : Team (dty R) Unit :=
  Team.start m () sc (dThresholdBody x big)

/-- One iteration of `bml_threshold_new_dense` (`bml_threshold_dense_typed.c`, 64-71): it loads the cell
twice. -/
def dThresholdNewBody (x z : Nat) (big : R → Bool) (p : Nat) (_ : Unit) : Prog (dty R) Unit := do
  let v ← Prog.load (ty := dty R) (.cell x p)
  if big v then
    let w ← Prog.load (ty := dty R) (.cell x p)
    Prog.store (ty := dty R) (.cell z p) w
  else pure ()

/-- The parallel loop of `bml_threshold_new_dense` (`bml_threshold_dense_typed.c`, 60-71), one process. -/
def dThresholdNewTeam (m : Mem (dty R)) (x z : Nat) (big : R → Bool) (sc : Sched) : Team (dty R) Unit :=
  Team.start m () sc (dThresholdNewBody x z big)

/-- One iteration of `bml_element_multiply_AB_dense` (`bml_element_multiply_dense_typed.c`, 81-85). -/
def dElemBody [Mul R] (x y z : Nat) (p : Nat) (_ : Unit) : Prog (dty R) Unit := do
  let v ← Prog.load (ty := dty R) (.cell x p)
  let w ← Prog.load (ty := dty R) (.cell y p)
  Prog.store (ty := dty R) (.cell z p) ((v : R) * (w : R))

/-- The parallel loop of `bml_element_multiply_AB_dense` (`bml_element_multiply_dense_typed.c`, 77-85),
one process. -/
def dElemTeam [Mul R] (m : Mem (dty R)) (x y z : Nat) (sc : Sched) : Team (dty R) Unit :=
  Team.start m () sc (dElemBody x y z)

/-- One iteration of `bml_add_identity_dense` (`bml_add_dense_typed.c`, 223-226). -/
def dIdentityBody [Add R] (N x : Nat) (beta : R) (i : Nat) (_ : Unit) : Prog (dty R) Unit := do
  let v ← Prog.load (ty := dty R) (.cell x (ROWMAJOR i i N N))
  Prog.store (ty := dty R) (.cell x (ROWMAJOR i i N N)) ((v : R) + beta)

/-- The parallel loop of `bml_add_identity_dense` (`bml_add_dense_typed.c`, 219-226), one process. -/
def dIdentityTeam [Add R] (N : Nat) (m : Mem (dty R)) (x : Nat) (beta : R) (sc : Sched) : Team (dty R) Unit :=
  Team.start m () sc (dIdentityBody N x beta)

/-- One iteration of `bml_transpose_new_dense` (`bml_transpose_dense_typed.c`, 67-73). -/
def dTransposeNewBody (N x z : Nat) (i : Nat) (_ : Unit) : Prog (dty R) Unit :=
  Prog.loop N () fun j _ => do
    let v ← Prog.load (ty := dty R) (.cell x (ROWMAJOR j i N N))
    Prog.store (ty := dty R) (.cell z (ROWMAJOR i j N N)) v

/-- The parallel loop of `bml_transpose_new_dense` (`bml_transpose_dense_typed.c`, 63-73), one process. -/
def dTransposeNewTeam (N : Nat) (m : Mem (dty R)) (x z : Nat) (sc : Sched) : Team (dty R) Unit :=
  Team.start m () sc (dTransposeNewBody N x z)

/-- One iteration of `bml_transpose_dense` (`bml_transpose_dense_typed.c`, 106-118): `j` runs from `i + 1`
to `N - 1`; the test `i != j` is kept. -/
def dTransposeBody (N x : Nat) (i : Nat) (_ : Unit) : Prog (dty R) Unit :=
  Prog.loop (N - (i + 1)) () fun k _ =>
    let j := i + 1 + k
    if i ≠ j then do
      let tmp ← Prog.load (ty := dty R) (.cell x (ROWMAJOR i j N N))
      let v ← Prog.load (ty := dty R) (.cell x (ROWMAJOR j i N N))
      Prog.store (ty := dty R) (.cell x (ROWMAJOR i j N N)) v
      Prog.store (ty := dty R) (.cell x (ROWMAJOR j i N N)) tmp
    else pure ()

/-- The parallel loop of `bml_transpose_dense` (`bml_transpose_dense_typed.c`, 103-118). -/
def dTransposeTeam (N : Nat) (m : Mem (dty R)) (x : Nat) (sc : Sched) : Team (dty R) Unit :=
  Team.start m () sc (dTransposeBody N x)

/-- One iteration of `bml_adjungate_triangle_dense` (`bml_adjungate_triangle_dense_typed.c`, 40-47 for
`'u'`, 52-59 for `'l'`), and with `conj` the identity of `bml_transpose_triangle_dense`
(`bml_transpose_triangle_dense_typed.c`, 39-46 and 51-58). -/
def dTriangleBody (N x : Nat) (conj : R → R) (upper : Bool) (i : Nat) (_ : Unit) : Prog (dty R) Unit :=
  Prog.loop (N - (i + 1)) () fun k _ =>
    let j := i + 1 + k
    if upper then do
      let v ← Prog.load (ty := dty R) (.cell x (ROWMAJOR i j N N))
      Prog.store (ty := dty R) (.cell x (ROWMAJOR j i N N)) (conj v)
    else do
      let v ← Prog.load (ty := dty R) (.cell x (ROWMAJOR j i N N))
      Prog.store (ty := dty R) (.cell x (ROWMAJOR i j N N)) (conj v)

/-- The parallel loops of the two functions (`bml_adjungate_triangle_dense_typed.c`, 39-59;
`bml_transpose_triangle_dense_typed.c`, 38-58). -/
def dTriangleTeam (N : Nat) (m : Mem (dty R)) (x : Nat) (conj : R → R) (upper : Bool) (sc : Sched) :
    Team (dty R) Unit :=
  Team.start m () sc (dTriangleBody N x conj upper)

/-- One iteration of `bml_fnorm2_dense` (`bml_norm_dense_typed.c`, 370-375): `temp` is shared, `fnorm` is
the thread's copy of the reduction variable. -/
def dFnorm2Body [Mul R] [Add R] [Sub R] (x y : Nat) (p : Nat) (fnorm : R) : Prog (dty R) R := do
  let v ← Prog.load (ty := dty R) (.cell x p)
  let w ← Prog.load (ty := dty R) (.cell y p)
  Prog.store (ty := dty R) .temp ((v : R) - (w : R))
  let s ← Prog.load (ty := dty R) .temp
  let t ← Prog.load (ty := dty R) .temp
  pure (fnorm + (s : R) * (t : R))

/-- The parallel loop of `bml_fnorm2_dense` (`bml_norm_dense_typed.c`, 364-375), one process. -/
def dFnorm2Team [Mul R] [Add R] [Sub R] [Zero R] (m : Mem (dty R)) (x y : Nat) (sc : Sched) :
    Team (dty R) R :=
  Team.start m (0 : R) sc (dFnorm2Body x y)

/-! ## Cells -/

theorem rowmajor_inj {N i j i' j' : Nat} (hj : j < N) (hj' : j' < N)
    (h : ROWMAJOR i j N N = ROWMAJOR i' j' N N) : i = i' ∧ j = j' := by
  unfold ROWMAJOR at h
  have h1 := congrArg (· / N) h
  have h2 := congrArg (· % N) h
  simp only [Dense.addr_div hj, Dense.addr_div hj'] at h1
  subst h1
  exact ⟨rfl, by omega⟩

/-- The memory after the loop. -/
def dtarget (N : Nat) (m0 : Mem (dty R)) (z : Nat) (b : Nat → Nat → R) : Mem (dty R)
  | .cell y p => if y = z then b (p / N) (p % N) else m0 (.cell y p)
  | .temp => m0 .temp

theorem dtarget_at {N z i j : Nat} {m0 : Mem (dty R)} {b : Nat → Nat → R} (hj : j < N) :
    dtarget N m0 z b (.cell z (ROWMAJOR i j N N)) = b i j := by
  show (if z = z then b ((i * N + j) / N) ((i * N + j) % N) else _) = _
  rw [if_pos rfl, Dense.addr_div hj, Dense.addr_mod hj]

theorem dtarget_ne {N z y p : Nat} {m0 : Mem (dty R)} {b : Nat → Nat → R} (h : y ≠ z) :
    dtarget N m0 z b (.cell y p) = m0 (.cell y p) := if_neg h

theorem dmat_ext {N x : Nat} {m m0 : Mem (dty R)} (h : ∀ p, m (.cell x p) = m0 (.cell x p)) :
    dmat N m x = dmat N m0 x := by
  unfold dmat
  congr 2
  funext p
  exact h p

theorem dmat_rep {N x : Nat} {m : Mem (dty R)} {a : Spec.Mat R} :
    (dmat N m x).Represents N a ↔ ∀ i j, i < N → j < N → m (.cell x (ROWMAJOR i j N N)) = a i j := by
  rw [Dense.represents_iff]
  exact ⟨fun h => h.get, fun h => ⟨rfl, rfl, h⟩⟩

end Race
end Bml
