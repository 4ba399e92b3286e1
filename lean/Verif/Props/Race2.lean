import Verif.Race.EllTranspose
import Verif.Props.EllTranspose
import Verif.Props.Race

/-!
# C77: appends under locks; data races
-/

namespace Bml
namespace Props

open Race

variable {R : Type} [CommRing R]

/-- **C77**, `bml_transpose_new` of an ELLPACK matrix: the threads append to rows of the new matrix
under the locks of the rows.  However their loads, stores and lock operations are interleaved, there is
no data race, no deadlock, no use of an entry or lock that does not exist, and the result is the
transposed matrix, if no column has more than `M` entries. -/
theorem C77_transpose_new {sh : Sizes} {m0 : Mem (Race.ty R)} {x z : Nat} {a : Spec.Mat R} (hxz : x ≠ z)
    (hA : (mat sh m0 x).Represents sh.N a) {jv : Nat → R} {ji : Nat → Nat}
    (hz : mat sh m0 z = Ell.noinit sh.N (sh.M x) jv ji) (hL : sh.locks = sh.N) {sc : Sched}
    (hsc : IsSched 0 sh.N sc)
    (hfit : ∀ c, c < sh.N → ((Finset.range sh.N).filter (fun i => (mat sh m0 x).Stored i c)).card ≤ sh.M x) :
    (transposeTeam sh m0 x z sc).Safe sh.inb fun m =>
      (mat sh m z).Represents sh.N (Spec.transpose a) ∧ ∀ y, y ≠ z → mat sh m y = mat sh m0 y := by
  have hRA := Ell.represents_iff.1 hA
  have hMz : sh.M z = sh.M x := congrArg Ell.M hz
  have hslot : ∀ ij ∈ (mat sh m0 x).slots, ij.1 < sh.N ∧ ij.2 < sh.M x ∧
      m0 (.idx x (ROWMAJOR ij.1 ij.2 sh.N (sh.M x))) < sh.N := by
    intro ij h
    obtain ⟨h1, h2⟩ := Ell.mem_slots.1 h
    have h3 := hRA.le ij.1 h1
    exact ⟨h1, lt_of_lt_of_le h2 h3, (hRA.good ij.1 h1).2 _ (Ell.mem_rowPre.2 ⟨ij.2, h2, rfl⟩)⟩
  have hrules : LockRules m0 (fun l => ∃ k, Row sh x k l) (slotLock sh m0 x) (slotBody sh m0 x z) (rowProt sh z)
      (fun done m => (forList done (mat sh m0 z) fun ij B => Ell.transposeStep (mat sh m0 x) ij B) =
        .ok (mat sh m z)) (mat sh m0 x).slots 6 sh.inb := by
    refine ⟨?_, ?_, ?_, ?_, ?_, ?_⟩
    · intro k k' l hne h
      cases k <;> cases k' <;> first | exact h.elim | exact id | exact Row.disjoint (.inr fun c => hne (congrArg _ c)) l h
    · rintro l ⟨i, hi⟩ k
      cases k <;> first | exact id | exact Row.disjoint (.inl hxz) l hi
    · rintro l (⟨k, h⟩ | ⟨i, h⟩)
      · cases k <;> first | exact h.elim | exact Row.inb h
      · exact h.inb
    · intro ij h
      have := (hslot ij h).2.2
      exact decide_eq_true (by rw [hL]; exact this)
    · intro done ij rest m hp hI hm
      obtain ⟨h1, h2, h3⟩ := hslot ij (hp.subset (by simp))
      obtain ⟨B, e, eM, hB⟩ := C17_transpose_new hA hp jv ji hfit
      have hv : m (.val x (ROWMAJOR ij.1 ij.2 sh.N (sh.M x))) = m0 (.val x (ROWMAJOR ij.1 ij.2 sh.N (sh.M x))) := by
        refine hm _ fun k => ?_
        cases k <;> first | exact id | exact fun c => hxz c.1
      have e2 : (forList (done ++ ij :: rest) (mat sh m0 z) fun ij B => Ell.transposeStep (mat sh m0 x) ij B) =
          .ok B := by
        rw [hz]
        exact e
      rw [forList_append, hI] at e2
      obtain ⟨C0, e0, e2⟩ := ok_bind e2
      cases e0
      obtain ⟨C1, e3, e4⟩ := ok_bind e2
      have hlt : ROWMAJOR ij.1 ij.2 sh.N (sh.M x) < sh.N * sh.M x := addr_lt h1 h2
      have hread : (mat sh m0 x).idx.read (ROWMAJOR ij.1 ij.2 (mat sh m0 x).N (mat sh m0 x).M) =
          .ok (m0 (.idx x (ROWMAJOR ij.1 ij.2 sh.N (sh.M x)))) :=
        Arr.read_ok (a := (mat sh m0 x).idx) hlt
      have hc : m (.nnz z (m0 (.idx x (ROWMAJOR ij.1 ij.2 sh.N (sh.M x))))) < sh.M z := by
        have g1 := (transposeStep_nnz e3 0).2 _ hread
        have g2 := transposeSteps_nnz rest e4 (m0 (.idx x (ROWMAJOR ij.1 ij.2 sh.N (sh.M x))))
        have g3 := (Ell.represents_iff.1 hB).le _ h3
        rw [eM] at g3
        rw [g1] at g2
        rw [hMz]
        exact lt_of_lt_of_le (Nat.lt_succ_self _) (le_trans g2 g3)
      refine Prog.wp_mono (transposeSec_wp (ij := ij) (ro := fun l => ∃ k, Row sh x k l) hxz h3 hc
        ⟨ij.1, Row.at_val h1 h2⟩) fun _ m' h => ?_
      rw [forList_append, hI]
      show Res.bind (Res.bind _ _) _ = _
      rw [hread]
      show Res.bind (Res.bind (Arr.read _ _) _) _ = _
      rw [Arr.read_ok (a := (mat sh m z).nnz) h3]
      show Res.bind (Res.bind (Arr.read _ _) _) _ = _
      rw [Arr.read_ok (a := (mat sh m0 x).val) (show ROWMAJOR ij.1 ij.2 (mat sh m0 x).N (mat sh m0 x).M <
        (mat sh m0 x).val.size from hlt)]
      rw [hv] at h
      show Res.bind (_ >>= _) _ = _
      erw [h]
      rfl
    · intro ij m
      exact le_refl _
  obtain ⟨T, hT⟩ := exists_threads sc
  have hits : ∀ t, T ≤ t → Team.its sc t = [] := by
    intro t ht
    rw [List.eq_nil_iff_forall_not_mem]
    intro i hi
    have := hT _ (Team.mem_its.1 hi)
    simp only at this
    omega
  have hout := fun t => transposeIts_outside (sh := sh) (m0 := m0) (x := x) (z := z) (Team.its sc t) (by
    intro i hi
    have hi : i < sh.N := ((hsc.mem i).1 (List.mem_map.2 ⟨_, Team.mem_its.1 hi, rfl⟩)).2
    exact ⟨hi, hRA.le i hi⟩)
  choose cost hcost hout using hout
  refine Team.Safe.mono (locked_safe (s := transposeTeam sh m0 x z sc) (T := T) hrules rfl (fun _ => rfl) rfl hout
    (fun t ht => hcost t (hits t ht)) ?_) ?_
  · rw [← List.flatMap_assoc]
    refine ((flatMap_its sc hT).flatMap_right _).trans ?_
    refine (List.Perm.flatMap_right _ hsc).trans ?_
    rw [List.flatMap_map]
    simp only [Nat.sub_zero, Nat.zero_add]
    exact List.Perm.refl _
  · rintro m ⟨⟨done, hp, hI⟩, hf⟩
    obtain ⟨B, e, eM, hB⟩ := C17_transpose_new hA hp jv ji hfit
    have : mat sh m z = B := by
      have e2 : (forList done (mat sh m0 z) fun ij B => Ell.transposeStep (mat sh m0 x) ij B) = .ok B := by
        rw [hz]
        exact e
      rw [hI] at e2
      exact Res.ok.inj e2
    refine ⟨by rw [this]; exact hB, fun y hy => ?_⟩
    refine mat_congr fun l hl => hf l fun k => ?_
    cases k <;> first | exact id | exact hl hy _

example : (transposeTeam exSizes exMats 0 2 exSched).Safe exSizes.inb fun m =>
    (mat exSizes m 2).Represents 3 (Spec.transpose exa) ∧
      ∀ y, y ≠ 2 → mat exSizes m y = mat exSizes exMats y :=
  C77_transpose_new (sh := exSizes) (m0 := exMats) (by decide) exMats_A (jv := fun p => p) (ji := fun p => p)
    rfl rfl exSched_ok (by decide)

/-! ## Data races -/

/-- **C77 fails** for `bml_adjungate_triangle` of an ELLPACK matrix with one entry in the upper triangle,
an empty lower triangle, room in every row, and a lock for every row: thread 0 changes `nnz[1]` under
the lock of row 1 while thread 1 is about to read it without the lock. -/
theorem C77_adjungate_race_witness :
    ((adjTeam ⟨2, fun _ => 2, 2⟩ (memOf fun _ => Ell.ofRows 2 2 fun i => if i = 0 then [(1, (7 : Int))] else [])
      id true 0 [(0, 0), (1, 1)]).exec (List.replicate 9 0)).Racing :=
  ⟨0, 1, true, false, .nnz 0 1, by decide, by decide +kernel, by decide +kernel, .inl rfl⟩

/-- The same without locks: the product written over its second factor. -/
theorem C77_product_alias_race_witness :
    ((multABTeam ⟨2, fun _ => 2, 0⟩ (memOf fun x => Ell.ofRows 2 2 fun i => if x = 0 then [(1 - i, (1 : Int))]
      else [(i, (i : Int) + 5)]) 0 1 1 (fun _ => true) [(0, 0), (1, 1)]).exec
        (List.replicate 6 1 ++ List.replicate 5 0)).Racing :=
  ⟨0, 1, false, true, .val 1 2, by decide, by decide +kernel, by decide +kernel, .inr rfl⟩

/-- A sum whose rows overflow: row 0 is written into row 1, which thread 1 is reading. -/
theorem C77_add_overflow_race_witness :
    ((addTeam ⟨2, fun _ => 1, 0⟩ (memOf fun x => Ell.ofRows 2 1 fun i => if x = 0 then [(i, (1 : Int))]
      else [(1 - i, (1 : Int))]) 0 1 1 1 (fun _ => true) [(0, 0), (1, 1)]).exec
        (List.replicate 9 0 ++ List.replicate 2 1)).Racing :=
  ⟨0, 1, true, false, .val 0 1, by decide, by decide +kernel, by decide +kernel, .inl rfl⟩

end Props
end Bml
