import Verif.Race.Ellpack
import Verif.Race.Locks
import Verif.Ellpack.Model4

/-!
# Transposition of ELLPACK matrices: appends under row locks, access by access
-/

namespace Bml
namespace Race

variable {R : Type}

/-- `bml_transpose_new_ellpack`, `bml_transpose_ellpack_typed.c` 89-93: slot `ij` of matrix `x` is
appended to row `trow` of matrix `z`. -/
def transposeSec (sh : Sizes) (x z : Nat) (ij : Nat × Nat) (trow : Nat) : Prog (ty R) Unit := do
  let colcnt ← ldNnz z trow
  Prog.store (.idx z (ROWMAJOR trow colcnt sh.N (sh.M z))) ij.1
  let v ← ldVal x (ROWMAJOR ij.1 ij.2 sh.N (sh.M x))
  Prog.store (.val z (ROWMAJOR trow colcnt sh.N (sh.M z))) v
  let n ← ldNnz z trow
  stNnz z trow (n + 1)

/-- `bml_transpose_ellpack_typed.c` 85-96: one slot, with the lock of the row. -/
def transposeSlot (sh : Sizes) (x z : Nat) (ij : Nat × Nat) : Prog (ty R) Unit := do
  let trow ← ldIdx x (ROWMAJOR ij.1 ij.2 sh.N (sh.M x))
  .acq (.lock trow) (.ret ())
  transposeSec sh x z ij trow
  .rel (.lock trow) (.ret ())

/-- `bml_transpose_ellpack_typed.c` 83-97.  `A_nnz[i]` is loaded once; the C text names it in every
turn. -/
def transposeRow (sh : Sizes) (x z i : Nat) : Prog (ty R) Unit := do
  let n ← ldNnz x i
  Prog.loop n () fun j _ => transposeSlot sh x z (i, j)

/-- The team of `bml_transpose_new_ellpack`: `A` is matrix `x`, the new matrix is `z`. -/
def transposeTeam (sh : Sizes) (m : Mem (ty R)) (x z : Nat) (sc : Sched) : Team (ty R) Unit :=
  Team.start m () sc fun i _ => transposeRow sh x z i

/-- `bml_adjungate_triangle_ellpack`, `bml_adjungate_triangle_ellpack_typed.c` 72-80 and 114-122: the
append of slot `j` of row `i` to row `ll`, with its lock. -/
def adjAppend (sh : Sizes) (conj : R → R) (x i j ll : Nat) : Prog (ty R) Unit := do
  .acq (.lock ll) (.ret ())
  let n ← ldNnz x ll
  Prog.store (.idx x (ROWMAJOR ll n sh.N (sh.M x))) i
  let n ← ldNnz x ll
  let v ← ldVal x (ROWMAJOR i j sh.N (sh.M x))
  Prog.store (.val x (ROWMAJOR ll n sh.N (sh.M x))) (conj v)
  let n ← ldNnz x ll
  stNnz x ll (n + 1)
  .rel (.lock ll) (.ret ())

/-- `bml_adjungate_triangle_ellpack_typed.c` 63-84 (`up`: the upper triangle is given) and 105-126. -/
def adjRow (sh : Sizes) (conj : R → R) (up : Bool) (x i : Nat) : Prog (ty R) Unit := do
  let l ← ldNnz x i
  Prog.loop l () fun j _ => do
    let ll ← ldIdx x (ROWMAJOR i j sh.N (sh.M x))
    if (if up then 0 < ll ∧ i < ll else ll < i) then adjAppend sh conj x i j ll else pure ()

/-- The team of `bml_adjungate_triangle_ellpack`; there are `A_M` locks. -/
def adjTeam (sh : Sizes) (m : Mem (ty R)) (conj : R → R) (up : Bool) (x : Nat) (sc : Sched) :
    Team (ty R) Unit :=
  Team.start m () sc fun i _ => adjRow sh conj up x i

/-! ## The appends -/

variable {m0 m : Mem (ty R)} {sh : Sizes} {x z : Nat}

theorem transposeSec_wp {ij : Nat × Nat} {trow : Nat} {ro : Loc → Prop} (hxz : x ≠ z) (ht : trow < sh.N)
    (hc : m (.nnz z trow) < sh.M z) (hr : ro (.val x (ROWMAJOR ij.1 ij.2 sh.N (sh.M x)))) :
    (transposeSec sh x z ij trow).wp (Row sh z trow) ro m fun _ m' =>
      (mat sh m z).putEntry trow (m (.nnz z trow)) ij.1 (m (.val x (ROWMAJOR ij.1 ij.2 sh.N (sh.M x)))) >>=
        (fun B => B.setNnz trow (m (.nnz z trow) + 1)) = .ok (mat sh m' z) := by
  refine ⟨.inl (Row.at_nnz ht), Row.at_idx ht hc, .inr hr, Row.at_val ht hc, .inl (Row.at_nnz ht), Row.at_nnz ht, ?_⟩
  have e1 : Function.update m (.idx z (ROWMAJOR trow (m (.nnz z trow)) sh.N (sh.M z))) ij.1
      (.val x (ROWMAJOR ij.1 ij.2 sh.N (sh.M x))) = m (.val x (ROWMAJOR ij.1 ij.2 sh.N (sh.M x))) :=
    Function.update_of_ne (by simp) _ _
  have e2 : ∀ v : R, Function.update (Function.update m (.idx z (ROWMAJOR trow (m (.nnz z trow)) sh.N (sh.M z))) ij.1)
      (.val z (ROWMAJOR trow (m (.nnz z trow)) sh.N (sh.M z))) v (.nnz z trow) = m (.nnz z trow) := by
    intro v
    rw [Function.update_of_ne (by simp), Function.update_of_ne (by simp)]
  have hlt : ROWMAJOR trow (m (.nnz z trow)) (mat sh m z).N (mat sh m z).M < sh.N * sh.M z := addr_lt ht hc
  unfold Ell.putEntry Ell.setNnz
  show Res.bind (Res.bind (Arr.write _ _ _) _) _ = _
  rw [Arr.write_ok _ (show _ < (mat sh m z).val.size from hlt)]
  show Res.bind (Res.bind (Arr.write _ _ _) _) _ = _
  rw [Arr.write_ok _ (show _ < (mat sh m z).idx.size from hlt)]
  show Res.bind (Arr.write _ _ _) _ = _
  rw [Arr.write_ok _ (show _ < (mat sh m z).nnz.size from ht)]
  show Res.ok _ = Res.ok _
  congr 1
  show _ = mat sh (Function.update _ _ _) z
  rw [mat_stNnz, mat_stVal, mat_stIdx, e1, e2]
  rfl

/-! ## Threads that append -/

theorem Prog.bind_assoc {Loc : Type} {ty : Loc → Type} {α β γ : Type} (p : Prog ty α) (f : α → Prog ty β)
    (g : β → Prog ty γ) : (p.bind f).bind g = p.bind fun a => (f a).bind g := by
  induction p with
  | ret a => rfl
  | rd l k ih => exact congrArg (Prog.rd l) (funext fun v => ih v)
  | wr l v k ih => exact congrArg (Prog.wr l v) ih
  | acq l k ih => exact congrArg (Prog.acq l) ih
  | rel l k ih => exact congrArg (Prog.rel l) ih
  | fail => rfl
  | ub => rfl

theorem Outside.bind {Loc : Type} {ty : Loc → Type} {α β ι : Type} {m0 : Mem ty}
    {ro : Loc → Prop} {lk : ι → Loc} {body : ι → Prog ty Unit} {n n' : Nat} {S S' : List ι} {p : Prog ty α}
    {f : α → Prog ty β} (h : Outside m0 ro lk body n S p) (hf : ∀ a, Outside m0 ro lk body n' S' (f a)) :
    Outside m0 ro lk body (n + n') (S ++ S') (p.bind f) := by
  induction h with
  | ret a =>
    rw [Nat.zero_add]
    exact hf a
  | rd l k hl _ ih =>
    rw [Nat.add_right_comm]
    exact .rd l _ hl ih
  | sec s k _ ih =>
    rw [Nat.add_right_comm]
    show Outside m0 ro lk body _ _ (.acq _ (((body s).bind _).bind f))
    rw [Prog.bind_assoc]
    exact .sec s _ ih

/-- The lock of the row slot `ij` is appended to. -/
def slotLock (sh : Sizes) (m0 : Mem (ty R)) (x : Nat) (ij : Nat × Nat) : Loc :=
  .lock (m0 (.idx x (ROWMAJOR ij.1 ij.2 sh.N (sh.M x))))

/-- The append of slot `ij`. -/
def slotBody (sh : Sizes) (m0 : Mem (ty R)) (x z : Nat) (ij : Nat × Nat) : Prog (ty R) Unit :=
  transposeSec sh x z ij (m0 (.idx x (ROWMAJOR ij.1 ij.2 sh.N (sh.M x))))

/-- What the lock of a row protects. -/
def rowProt (sh : Sizes) (z : Nat) : Loc → Loc → Prop
  | .lock r => Row sh z r
  | _ => fun _ => False

/-- The slots of row `i`. -/
def rowSlots (m0 : Mem (ty R)) (x i : Nat) : List (Nat × Nat) := (List.range (m0 (.nnz x i))).map fun j => (i, j)

theorem transposeRow_outside {i : Nat} (hi : i < sh.N) (hn : m0 (.nnz x i) ≤ sh.M x) :
    Outside m0 (fun l => ∃ k, Row sh x k l) (slotLock sh m0 x) (slotBody sh m0 x z)
      (1 + 3 * m0 (.nnz x i)) (rowSlots m0 x i) (transposeRow sh x z i) := by
  rw [Nat.add_comm]
  refine .rd _ _ ⟨i, Row.at_nnz hi⟩ ?_
  unfold rowSlots
  have key : ∀ n : Nat, n ≤ m0 (.nnz x i) →
      Outside m0 (fun l => ∃ k, Row sh x k l) (slotLock sh m0 x) (slotBody sh m0 x z) (3 * n)
        ((List.range n).map fun j => (i, j)) (Prog.loop n () fun j _ => transposeSlot sh x z (i, j)) := by
    intro n
    induction n with
    | zero => exact fun _ => .ret ()
    | succ n ih =>
      intro hle
      rw [List.range_succ, List.map_append]
      refine Outside.bind (n' := 3) (S' := [(i, n)]) (ih (Nat.le_of_succ_le hle)) fun _ => ?_
      exact .rd _ _ ⟨i, Row.at_idx hi (lt_of_lt_of_le (α := Nat) hle hn)⟩ (.sec (i, n) (.ret ()) (.ret ()))
  exact key _ (le_refl _)

theorem transposeIts_outside (is : List Nat) (h : ∀ i ∈ is, i < sh.N ∧ m0 (.nnz x i) ≤ sh.M x) :
    ∃ n, (is = [] → n = 0) ∧ Outside m0 (fun l => ∃ k, Row sh x k l) (slotLock sh m0 x) (slotBody sh m0 x z) n
      (is.flatMap (rowSlots m0 x)) (Prog.forL is () fun i _ => transposeRow sh x z i) := by
  induction is with
  | nil => exact ⟨0, fun _ => rfl, .ret ()⟩
  | cons i is ih =>
    obtain ⟨n, -, hn⟩ := ih fun j hj => h j (by simp [hj])
    obtain ⟨h1, h2⟩ := h i (by simp)
    exact ⟨_, fun c => (by cases c), Outside.bind (transposeRow_outside h1 h2) fun _ => hn⟩

/-- The iterations of all threads are the iterations. -/
theorem flatMap_its (sc : Sched) {T : Nat} (hT : ∀ ti ∈ sc, ti.1 < T) :
    ((List.range T).flatMap (Team.its sc)).Perm (sc.map Prod.snd) := by
  induction sc with
  | nil =>
    have : (List.range T).flatMap (Team.its []) = [] := by simp [Team.its]
    rw [this]
    exact List.Perm.refl _
  | cons ti sc ih =>
    obtain ⟨t, i⟩ := ti
    refine (flatMap_upd (f' := Team.its sc) (x := i) (t := t) (hT (t, i) (by simp)) (Team.its_cons_self t i sc)
      fun t' c => (Team.its_cons_ne i sc c).symm).trans ?_
    exact (ih fun ti h => hT ti (by simp [h])).cons i

theorem exists_threads (sc : Sched) : ∃ T, ∀ ti ∈ sc, ti.1 < T := by
  induction sc with
  | nil => exact ⟨0, fun _ h => by cases h⟩
  | cons ti sc ih =>
    obtain ⟨T, h⟩ := ih
    refine ⟨T + ti.1 + 1, fun u hu => ?_⟩
    rcases List.mem_cons.1 hu with rfl | hu
    · omega
    · have := h u hu
      omega

/-- Appends do not remove anything. -/
theorem transposeStep_nnz {A B B' : Ell R} {ij : Nat × Nat} (h : Ell.transposeStep A ij B = .ok B') (r : Nat) :
    B.nnz.get r ≤ B'.nnz.get r ∧ (∀ t, A.idx.read (ROWMAJOR ij.1 ij.2 A.N A.M) = .ok t →
      B'.nnz.get t = B.nnz.get t + 1) := by
  obtain ⟨t, h1, h⟩ := ok_bind h
  obtain ⟨n, h2, h⟩ := ok_bind h
  obtain ⟨v, h3, h⟩ := ok_bind h
  obtain ⟨C, h4, h⟩ := ok_bind h
  obtain ⟨nz, h5, h⟩ := ok_bind h
  obtain ⟨w, h6, h4⟩ := ok_bind h4
  obtain ⟨u, h7, h4⟩ := ok_bind h4
  cases h4
  cases h
  unfold Arr.read at h2
  split at h2
  · rename_i hc
    cases h2
    rw [Arr.write_ok _ (show t < B.nnz.size from hc)] at h5
    cases h5
    constructor
    · show _ ≤ upd _ _ _ _
      by_cases c : r = t
      · subst c
        rw [upd_same]
        omega
      · rw [upd_ne _ _ c]
    · intro t' ht'
      rw [h1] at ht'
      cases ht'
      show upd _ _ _ _ = _
      rw [upd_same]
  · cases h2

theorem transposeSteps_nnz {A B B' : Ell R} (l : List (Nat × Nat))
    (h : (forList l B fun ij B => Ell.transposeStep A ij B) = .ok B') (r : Nat) :
    B.nnz.get r ≤ B'.nnz.get r := by
  induction l generalizing B with
  | nil =>
    cases h
    exact le_refl _
  | cons ij l ih =>
    obtain ⟨C, h1, h2⟩ := ok_bind h
    exact le_trans (transposeStep_nnz h1 r).1 (ih h2)

end Race
end Bml
