import Verif.Csr.Transpose
import Verif.Csr.Ops4
import Verif.Ellpack.Adjust

/-!
# Row space of the CSR format

No function gives row space back: rows that once have room for `n` entries keep it.
-/

set_option linter.unusedSectionVars false

namespace Bml

/-- Partial correctness of a step whose result does not matter. -/
theorem Res.wlp_skip {α β : Type} {r : Res α} {f : α → Res β} {Q : β → Prop}
    (h : ∀ a, (f a).wlp Q) : (r >>= f).wlp Q := Res.wlp_bind.2 fun a _ => h a

variable {R : Type}

namespace CsrRow

theorem le_expand (a : Nat) : a ≤ expand a := by unfold expand; omega

theorem le_rowSpace (a : Nat) : a ≤ rowSpace a := by
  unfold rowSpace; split <;> omega

theorem room_setNew {n : Nat} {r : CsrRow R} (h : n ≤ r.alloc) (j : Nat) (v : R) :
    (r.setNew j v).wlp fun r' => n ≤ r'.alloc := by
  unfold setNew
  refine Res.wlp_skip fun cols => Res.wlp_skip fun vals => Res.wlp_ok.2 ?_
  show n ≤ (if r.nnz + 1 > r.alloc then _ else _ : CsrRow R).alloc
  split
  · exact h.trans (le_expand _)
  · exact h

theorem room_set {n : Nat} {r : CsrRow R} (h : n ≤ r.alloc) (j : Nat) (v : R) :
    (r.set j v).wlp fun r' => n ≤ r'.alloc := by
  unfold set
  refine Res.wlp_skip fun o => ?_
  cases o with
  | some l => exact Res.wlp_skip fun vals => Res.wlp_ok.2 h
  | none => exact room_setNew h j v

theorem room_setAll {n : Nat} {r : CsrRow R} (h : n ≤ r.alloc) (k : Nat) (c : Arr Nat) (v : Arr R) :
    (r.setAll k c v).wlp fun r' => n ≤ r'.alloc := by
  unfold setAll
  refine Res.wlp_skip fun st => Res.wlp_ok.2 ?_
  show n ≤ (r.reserve k).alloc
  unfold reserve
  split
  · show n ≤ k; omega
  · exact h

theorem room_clear [Zero R] {n : Nat} {r : CsrRow R} (h : n ≤ r.alloc) :
    r.clear.wlp fun r' => n ≤ r'.alloc := by
  unfold clear
  exact Res.wlp_skip fun _ => Res.wlp_skip fun _ => Res.wlp_ok.2 h

theorem room_copyNew (r : CsrRow R) (jv : Nat → R) (ji : Nat → Nat) :
    (r.copyNew jv ji).wlp fun r' => r.alloc ≤ r'.alloc := by
  unfold copyNew
  exact Res.wlp_skip fun _ => Res.wlp_skip fun _ => Res.wlp_ok.2 (le_rowSpace _)

theorem room_copyInto {n : Nat} {r b : CsrRow R} (h : n ≤ b.alloc) :
    (r.copyInto b).wlp fun r' => n ≤ r'.alloc := by
  unfold copyInto
  split
  · exact Res.wlp_error
  · exact Res.wlp_skip fun _ => Res.wlp_skip fun _ => Res.wlp_ok.2 h

theorem room_scale [Mul R] {n : Nat} {r : CsrRow R} (h : n ≤ r.alloc) (a : R) :
    (r.scale a).wlp fun r' => n ≤ r'.alloc := by
  unfold scale
  exact Res.wlp_skip fun _ => Res.wlp_ok.2 h

theorem room_threshold {n : Nat} {r : CsrRow R} (h : n ≤ r.alloc) (big : R → Bool) :
    (r.threshold big).wlp fun r' => n ≤ r'.alloc := by
  unfold threshold
  exact Res.wlp_skip fun _ => Res.wlp_ok.2 h

theorem room_swap {n : Nat} {r : CsrRow R} (h : n ≤ r.alloc) (p q : Nat) :
    (r.swap p q).wlp fun r' => n ≤ r'.alloc := by
  unfold swap
  split
  · exact Res.wlp_ok.2 h
  · exact Res.wlp_skip fun _ => Res.wlp_skip fun _ => Res.wlp_skip fun _ => Res.wlp_skip fun _ =>
      Res.wlp_skip fun _ => Res.wlp_skip fun _ => Res.wlp_skip fun _ => Res.wlp_skip fun _ =>
      Res.wlp_ok.2 h

end CsrRow

namespace Csr

/-- `A` has size `N`, the row width `M` it was made with, and room for `n` entries in every row. -/
structure Room (N M n : Nat) (A : Csr R) : Prop where
  dim : A.N = N
  size : A.data.size = N
  width : A.M = M
  room : ∀ i, i < N → n ≤ (A.data.get i).alloc

variable {N M n : Nat}

theorem Room.write {A : Csr R} (h : Room N M n A) {i : Nat} {r : CsrRow R} (hr : n ≤ r.alloc) :
    (A.data.write i r).wlp fun d => Room N M n { A with data := d } := by
  intro d e
  unfold Arr.write at e
  split at e
  · cases e
    refine ⟨h.dim, h.size, h.width, fun k hk => ?_⟩
    show n ≤ (upd A.data.get i r k).alloc
    by_cases hki : k = i
    · subst hki; rw [upd_same]; exact hr
    · rw [upd_ne _ _ hki]; exact h.room k hk
  · cases e

/-- A row read has room. -/
theorem Room.row {A : Csr R} (h : Room N M n A) {i : Nat} :
    (A.data.read i).wlp fun r => n ≤ r.alloc := by
  intro r e
  unfold Arr.read at e
  split at e
  · next hi => cases e; exact h.room i (h.size ▸ hi)
  · cases e

theorem Room.onRow {A : Csr R} (h : Room N M n A) {i : Nat}
    {f : CsrRow R → Res (CsrRow R)} (hf : ∀ r, n ≤ r.alloc → (f r).wlp fun r' => n ≤ r'.alloc) :
    (A.onRow i f).wlp (Room N M n) := by
  unfold Csr.onRow
  refine Res.wlp_bind.2 (Res.wlp_mono h.row fun r hr => Res.wlp_bind.2
    (Res.wlp_mono (hf r hr) fun r' hr' => Res.wlp_bind.2 (Res.wlp_mono (h.write hr') fun d hd =>
      Res.wlp_ok.2 hd)))

theorem Room.forRows {A : Csr R} (h : Room N M n A) {sc : Sched}
    {f : Nat → CsrRow R → Res (CsrRow R)}
    (hf : ∀ i r, n ≤ r.alloc → (f i r).wlp fun r' => n ≤ r'.alloc) :
    (A.forRows sc f).wlp (Room N M n) := by
  unfold Csr.forRows
  refine wlp_forList (fun _ A => Room N M n A) h fun pre ti A hm hA => ?_
  refine Res.wlp_bind.2 (Res.wlp_mono hA.row fun r hr => Res.wlp_bind.2
    (Res.wlp_mono (hf ti.2 r hr) fun r' hr' => Res.wlp_bind.2 (Res.wlp_mono (hA.write hr')
      fun d hd => Res.wlp_ok.2 hd)))

theorem Room.forRowsS {S T : Type} {A : Csr R} (h : Room N M n A) {sc : Sched}
    {s : S} {t : T} {f : Nat → CsrRow R → S → T → Res (CsrRow R × S × T)}
    (hf : ∀ i r s t, n ≤ r.alloc → (f i r s t).wlp fun x => n ≤ x.1.alloc) :
    (A.forRowsS sc s t f).wlp fun x => Room N M n x.1 := by
  unfold Csr.forRowsS
  refine Res.wlp_bind.2 (Res.wlp_mono (wlp_forList
    (fun _ (st : Csr R × (Nat → S) × T) => Room N M n st.1) h fun pre ti st hm hA => ?_)
    fun st hst => Res.wlp_ok.2 hst)
  refine Res.wlp_bind.2 (Res.wlp_mono hA.row fun r hr => Res.wlp_bind.2
    (Res.wlp_mono (hf ti.2 r _ _ hr) ?_))
  rintro ⟨r', s', t'⟩ hr'
  exact Res.wlp_bind.2 (Res.wlp_mono (hA.write hr') fun d hd => Res.wlp_ok.2 hd)

variable [Zero R] [One R] [Add R] [Mul R] [Neg R] [Sub R]

theorem Room.setElement {A : Csr R} (h : Room N M n A) (i : Nat) (j : Nat) (v : R) :
    (A.setElement i j v).wlp (Room N M n) := h.onRow fun _ hr => CsrRow.room_set hr j v

theorem Room.setElementNew {A : Csr R} (h : Room N M n A) (i : Nat) (j : Nat) (v : R) :
    (A.setElementNew i j v).wlp (Room N M n) := h.onRow fun _ hr => CsrRow.room_setNew hr j v

theorem Room.setRow {A : Csr R} (h : Room N M n A) (i : Nat) (row : Arr R)
    (big : R → Bool) (junk : Nat → Nat) : (A.setRow i row big junk).wlp (Room N M n) :=
  h.onRow fun r hr => Res.wlp_skip fun _ =>
    CsrRow.room_setAll (r := { r with nnz := 0 }) hr _ _ _

theorem Room.setDiagonal {A : Csr R} (h : Room N M n A) (diag : Arr R) (big : R → Bool) :
    (A.setDiagonal diag big).wlp (Room N M n) := by
  unfold Csr.setDiagonal
  rw [h.dim]
  exact wlp_loop (fun _ A => Room N M n A) h fun i hi A hA => Res.wlp_skip fun d =>
    hA.onRow fun _ hr => CsrRow.room_set hr _ _

theorem Room.newZero (hn : n ≤ CsrRow.rowSpace M) : Room N M n (Csr.newZero N M : Csr R) :=
  ⟨rfl, rfl, rfl, fun _ _ => hn⟩

theorem Room.identity (hn : n ≤ CsrRow.rowSpace M) {sc : Sched} :
    (Csr.identity N M sc : Res (Csr R)).wlp (Room N M n) := by
  unfold Csr.identity
  exact (Room.newZero hn).forRows fun i r hr =>
    Res.wlp_skip fun _ => Res.wlp_skip fun _ => Res.wlp_ok.2 hr

theorem Room.copyNew {A : Csr R} (h : Room N M n A) {sc : Sched} (hsc : IsSched 0 N sc)
    (jd : Nat → CsrRow R) (jv : Nat → Nat → R) (ji : Nat → Nat → Nat) :
    (A.copyNew sc jd jv ji).wlp (Room N M n) := by
  unfold Csr.copyNew
  refine Res.wlp_bind.2 (Res.wlp_mono (wlp_forList
    (fun pre (d : Arr (CsrRow R)) => d.size = N ∧ ∀ i ∈ pre.map Prod.snd, n ≤ (d.get i).alloc)
    ⟨h.dim, fun i hi => by cases hi⟩ fun pre ti d hm hd => ?_) fun d hd => Res.wlp_ok.2
      ⟨h.dim, hd.1, h.width, fun i hi => hd.2 i ((hsc.mem i).2 ⟨Nat.zero_le _, hi⟩)⟩)
  refine Res.wlp_bind.2 (Res.wlp_mono h.row fun r hr => Res.wlp_bind.2
    (Res.wlp_mono (CsrRow.room_copyNew r _ _) fun r' hr' => ?_))
  intro d' e
  unfold Arr.write at e
  split at e
  · cases e
    refine ⟨hd.1, fun k hk => ?_⟩
    show n ≤ (upd d.get ti.2 r' k).alloc
    by_cases hki : k = ti.2
    · subst hki; rw [upd_same]; exact hr.trans hr'
    · rw [upd_ne _ _ hki]
      rw [List.map_append, List.mem_append] at hk
      rcases hk with hk | hk
      · exact hd.2 k hk
      · exact absurd (by simpa using hk) hki
  · cases e

theorem Room.copyInto {A B : Csr R} (h : Room N M n B) {sc : Sched} :
    (A.copyInto B sc).wlp (Room N M n) := by
  unfold Csr.copyInto
  split
  · exact h.forRows fun i r hr => Res.wlp_skip fun a => CsrRow.room_copyInto hr
  · exact Res.wlp_error

theorem Room.scaleInplace {A : Csr R} (h : Room N M n A) (a : R) {sc : Sched} : (A.scaleInplace a sc).wlp (Room N M n) :=
  h.forRows fun _ _ hr => CsrRow.room_scale hr a

theorem Room.scale {A B : Csr R} (h : Room N M n B) (a : R) {sc sc' : Sched} : (Csr.scale a A B sc sc').wlp (Room N M n) :=
  Res.wlp_bind.2 (Res.wlp_mono (h.copyInto) fun _ hB => hB.scaleInplace a)

theorem Room.threshold {A : Csr R} (h : Room N M n A) (big : R → Bool) {sc : Sched} : (A.threshold big sc).wlp (Room N M n) :=
  h.forRows fun _ _ hr => CsrRow.room_threshold hr big

theorem room_addEntry (β : R) (t : Hash.Table) (c : Nat) (w : R) {st : CsrRow R × Bool}
    (h : n ≤ st.1.alloc) : (addEntry β t c w st).wlp fun st' => n ≤ st'.1.alloc := by
  unfold addEntry
  refine Res.wlp_skip fun o => ?_
  cases o with
  | some k =>
    show (if st.2 = true then _ else _ : Res _).wlp _
    split
    · exact Res.wlp_ub
    · exact Res.wlp_skip fun _ => Res.wlp_skip fun _ => Res.wlp_ok.2 h
  | none =>
    exact Res.wlp_bind.2 (Res.wlp_mono (CsrRow.room_setNew h c _) fun r hr => Res.wlp_ok.2 hr)

theorem room_addRow (α β : R) (b : CsrRow R) {r : CsrRow R} (h : n ≤ r.alloc) (t : Hash.Table) :
    (addRow α β b r t).wlp fun x => n ≤ x.1.alloc := by
  unfold addRow
  refine Res.wlp_skip ?_
  rintro ⟨vals, t⟩
  refine Res.wlp_bind.2 (Res.wlp_mono (P := fun x : CsrRow R × Bool => n ≤ x.1.alloc) ?_ ?_)
  · unfold CsrRow.fold
    exact wlp_loop (fun _ (x : CsrRow R × Bool) => n ≤ x.1.alloc) h fun k _ st hst =>
      Res.wlp_skip fun c => Res.wlp_skip fun v => room_addEntry β t c v hst
  · rintro ⟨r', s⟩ hr
    exact Res.wlp_skip fun _ => Res.wlp_ok.2 hr

theorem Room.add {A B : Csr R} (h : Room N M n A) (α β : R) (big : R → Bool) {sc sc' : Sched} (junk : Nat → Hash.Slot) :
    (A.add B α β big sc sc' junk).wlp (Room N M n) := by
  unfold Csr.add
  refine Res.wlp_skip fun ts => Res.wlp_skip fun t => Res.wlp_bind.2
    (Res.wlp_mono (h.forRowsS fun i r s u hr => ?_) ?_)
  · refine Res.wlp_skip fun b => Res.wlp_bind.2 (Res.wlp_mono (room_addRow α β b hr s) ?_)
    rintro ⟨r', t'⟩ hr'
    exact Res.wlp_ok.2 hr'
  · rintro ⟨A', u⟩ hA
    exact Room.threshold hA big

theorem Room.addIdentity [DecidableEq R] {A : Csr R} (h : Room N M n A) (β : R) (big : R → Bool)
    {sc sc' : Sched} :
    (A.addIdentity β big sc sc').wlp (Room N M n) := by
  unfold Csr.addIdentity
  refine Res.wlp_bind.2 (Res.wlp_mono (h.forRows fun i r hr => ?_) fun A' hA =>
    hA.threshold big)
  unfold addIdentityRow
  refine Res.wlp_skip fun o => ?_
  split
  · cases o with
    | none => exact CsrRow.room_setNew hr i β
    | some p => exact Res.wlp_skip fun _ => Res.wlp_skip fun _ => Res.wlp_ok.2 hr
  · exact Res.wlp_ok.2 hr

theorem Room.scaleAddIdentity [DecidableEq R] {A : Csr R} (h : Room N M n A) (a β : R)
    (big : R → Bool) {sc sc1 sc2 : Sched} : (A.scaleAddIdentity a β big sc sc1 sc2).wlp (Room N M n) :=
  Res.wlp_bind.2 (Res.wlp_mono (h.scaleInplace a) fun _ hA => hA.addIdentity β big)

theorem room_flushRow (i : Nat) (big : R → Bool) {r : CsrRow R} (h : n ≤ r.alloc) (s : Scr R)
    (l : Nat) (t : R) : (flushRow i big r s l t).wlp fun x => n ≤ x.1.alloc := by
  unfold flushRow
  refine Res.wlp_bind.2 (Res.wlp_mono (CsrRow.room_clear h) fun r' hr' => ?_)
  refine wlp_loop (fun _ (x : CsrRow R × Scr R × R) => n ≤ x.1.alloc) hr' fun k _ st hst => ?_
  refine Res.wlp_skip fun jp => Res.wlp_skip fun x => ?_
  refine Res.wlp_bind.2 (Res.wlp_mono (P := fun x : CsrRow R × R => n ≤ x.1.alloc) ?_ ?_)
  · split
    · exact Res.wlp_bind.2 (Res.wlp_mono (CsrRow.room_setNew hst jp x) fun r hr => Res.wlp_ok.2 hr)
    · split
      · exact Res.wlp_bind.2 (Res.wlp_mono (CsrRow.room_setNew hst jp x) fun r hr =>
          Res.wlp_ok.2 hr)
      · exact Res.wlp_ok.2 hst
  · rintro ⟨r, u⟩ hr
    exact Res.wlp_skip fun _ => Res.wlp_skip fun _ => Res.wlp_ok.2 hr

theorem Room.multX2 {X X2 : Csr R} (h : Room N M n X2) (big : R → Bool) {sc : Sched} : (multX2 X X2 big sc).wlp fun x => Room N M n x.1 := by
  unfold Csr.multX2
  refine h.forRowsS fun i r s t hr => Res.wlp_skip ?_
  rintro ⟨st, t1⟩
  refine Res.wlp_bind.2 (Res.wlp_mono (room_flushRow i big hr _ _ _) ?_)
  rintro ⟨r', s', t2⟩ hr'
  exact Res.wlp_ok.2 hr'

theorem Room.multiply {A B C : Csr R} (h : Room N M n C) (α β : R) (big : R → Bool)
    {sc sc1 sc2 : Sched}
    (jv : Nat → Nat → R) (ji : Nat → Nat → Nat) (junk : Nat → Hash.Slot) :
    (Csr.multiply A B C α β big sc sc1 sc2 jv ji junk).wlp (Room N M n) :=
  Res.wlp_skip fun _ => h.add β α big junk

theorem Room.multiplySelf [DecidableEq R] {A C : Csr R} (h : Room N M n C) (α β : R)
    (big : R → Bool) {sc sc1 sc2 : Sched} (jv : Nat → Nat → R) (ji : Nat → Nat → Nat)
    (junk : Nat → Hash.Slot) :
    (Csr.multiplySelf A C α β big sc sc1 sc2 jv ji junk).wlp (Room N M n) := by
  unfold Csr.multiplySelf
  split
  · exact Res.wlp_bind.2 (Res.wlp_mono (h.multX2 big) fun x hx => Res.wlp_ok.2 hx)
  · exact Res.wlp_skip fun _ => h.add β α big junk

theorem Room.transposeNew {A : Csr R} (hd : A.N = N) (hm : A.M = M) (hn : n ≤ CsrRow.rowSpace M)
    (sc : List (Nat × Nat)) (jv : Nat → Nat → R) (ji : Nat → Nat → Nat) :
    (A.transposeNew sc jv ji).wlp (Room N M n) := by
  unfold Csr.transposeNew
  rw [hd, hm]
  exact wlp_forList (fun _ B => Room N M n B) ⟨rfl, rfl, rfl, fun _ _ => hn⟩
    fun pre ip B _ hB => Res.wlp_skip fun r => Res.wlp_skip fun j => Res.wlp_skip fun v =>
      hB.setElementNew j ip.1 v

theorem Room.leftStep {s : TrSt R} (h : Room N M n s.A) (i : Nat) :
    (leftStep i s).wlp fun s' => Room N M n s'.A := by
  unfold Csr.leftStep
  refine Res.wlp_bind.2 (Res.wlp_mono h.row fun ri hri => Res.wlp_skip fun j => ?_)
  have two : ∀ {a b : Nat} {r r' : CsrRow R}, n ≤ r.alloc → n ≤ r'.alloc →
      ((s.A.data.write a r).wlp fun d => (d.write b r').wlp fun d' =>
        Room N M n { s.A with data := d' }) := fun hr hr' =>
    Res.wlp_mono (h.write hr) fun d hd => Room.write hd hr'
  split
  · refine Res.wlp_bind.2 (Res.wlp_mono h.row fun rj hrj => Res.wlp_skip fun js =>
      Res.wlp_skip fun o => ?_)
    cases o with
    | some jpos =>
      refine Res.wlp_skip fun tmp => Res.wlp_skip fun w => Res.wlp_skip fun iv =>
        Res.wlp_skip fun jv => Res.wlp_skip fun ni => Res.wlp_bind.2
        (Res.wlp_mono (CsrRow.room_swap (r := { ri with vals := iv }) hri _ _) fun ri' hri' =>
          Res.wlp_skip fun nj => Res.wlp_bind.2
        (Res.wlp_mono (CsrRow.room_swap (r := { rj with vals := jv }) hrj _ _) fun rj' hrj' => ?_))
      refine Res.wlp_bind.2 (Res.wlp_mono (two hri' hrj') fun d hd => Res.wlp_bind.2
        (Res.wlp_mono hd fun d' hd' => Res.wlp_skip fun _ => Res.wlp_skip fun _ =>
          Res.wlp_skip fun _ => Res.wlp_ok.2 hd'))
    | none =>
      refine Res.wlp_skip fun v => Res.wlp_bind.2 (Res.wlp_mono (CsrRow.room_setNew hrj i v)
        fun rj1 hrj1 => Res.wlp_skip fun nj => Res.wlp_bind.2
        (Res.wlp_mono (CsrRow.room_swap hrj1 _ _) fun rj' hrj' => Res.wlp_skip fun nzt => ?_))
      refine Res.wlp_bind.2 (Res.wlp_mono
        (two (r' := { ri with nnz := ri.nnz - 1 }) hrj' hri) fun d hd => Res.wlp_bind.2
        (Res.wlp_mono hd fun d' hd' => Res.wlp_ok.2 hd'))
  · split
    · refine Res.wlp_bind.2 (Res.wlp_mono h.row fun rj hrj => Res.wlp_skip fun v => Res.wlp_bind.2
        (Res.wlp_mono (CsrRow.room_setNew hrj i v) fun rj' hrj' => Res.wlp_skip fun nj =>
          Res.wlp_skip fun nzt => ?_))
      refine Res.wlp_bind.2 (Res.wlp_mono
        (two (r' := { ri with nnz := ri.nnz - 1 }) hrj' hri) fun d hd => Res.wlp_bind.2
        (Res.wlp_mono hd fun d' hd' => Res.wlp_ok.2 hd'))
    · exact Res.wlp_skip fun ni => Res.wlp_bind.2 (Res.wlp_mono (CsrRow.room_swap hri _ _)
        fun ri' hri' => Res.wlp_skip fun nzt => Res.wlp_bind.2
        (Res.wlp_mono (h.write hri') fun d hd => Res.wlp_ok.2 hd))

theorem wlp_whileLoop {σ : Type} {c : σ → Bool} {f : σ → Res σ} {I : σ → Prop}
    (hs : ∀ s, I s → (f s).wlp I) : ∀ (k : Nat) (s : σ), I s → (whileLoop c f k s).wlp I := by
  intro k
  induction k with
  | zero =>
    intro s h
    unfold whileLoop
    split
    · exact Res.wlp_ub
    · exact Res.wlp_ok.2 h
  | succ k ih =>
    intro s h
    unfold whileLoop
    split
    · exact Res.wlp_bind.2 (Res.wlp_mono (hs s h) fun s' h' => ih s' h')
    · exact Res.wlp_ok.2 h

theorem Room.transposeInPlace {A : Csr R} (h : Room N M n A) :
    A.transposeInPlace.wlp (Room N M n) := by
  unfold Csr.transposeInPlace
  refine Res.wlp_bind.2 (Res.wlp_mono (wlp_loop
    (fun _ (st : Csr R × Arr Nat) => Room N M n st.1) h fun i _ st hst => ?_) ?_)
  · unfold leftRow
    exact Res.wlp_skip fun r => Res.wlp_bind.2 (Res.wlp_mono
      (wlp_whileLoop (I := fun s : TrSt R => Room N M n s.A) (fun s hs => hs.leftStep i) _ _ hst)
      fun s hs => Res.wlp_ok.2 hs)
  · rintro ⟨A', nz⟩ hA
    exact Res.wlp_ok.2 hA

end Csr

end Bml
