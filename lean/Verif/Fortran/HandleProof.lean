import Verif.Fortran.Handle
import Verif.Props.Handle
import Mathlib.Data.List.TakeWhile

/-! # The Fortran interface (1): lemmas -/

namespace Bml.Fortran

open Bml.Handle

/-! ## Names -/

theorem trim_append_blanks (s : Str) (k : Nat) : trim (s ++ List.replicate k ' ') = trim s := by
  unfold trim
  rw [List.reverse_append, List.reverse_replicate]
  congr 1
  induction k with
  | zero => rfl
  | succ k ih => rw [List.replicate_succ, List.cons_append, List.dropWhile_cons_of_pos (by simp), ih]

theorem eq_trim_append (s : Str) : ∃ k, s = trim s ++ List.replicate k ' ' := by
  unfold trim
  obtain ⟨k, hk⟩ : ∃ k, s.reverse.takeWhile (fun c => decide (c = ' ')) = List.replicate k ' ' := by
    refine ⟨_, List.eq_replicate_iff.2 ⟨rfl, fun b hb => ?_⟩⟩
    simpa using List.mem_takeWhile_imp hb
  refine ⟨k, ?_⟩
  have h := List.takeWhile_append_dropWhile (p := fun c => decide (c = ' ')) (l := s.reverse)
  rw [hk] at h
  have := congrArg List.reverse h
  rw [List.reverse_append, List.reverse_reverse, List.reverse_replicate] at this
  exact this.symm

theorem trim_trim (s : Str) : trim (trim s) = trim s := by
  obtain ⟨k, hk⟩ := eq_trim_append s
  conv_rhs => rw [hk, trim_append_blanks]

/-- A name of at most twenty characters survives the assignment to a `character(len=20)`. -/
theorem trim_char20 {s : Str} (h : (trim s).length ≤ 20) : trim (char20 s) = trim s := by
  obtain ⟨k, hk⟩ := eq_trim_append s
  have : char20 s = trim s ++ List.replicate (20 - (trim s).length) ' ' := by
    unfold char20
    conv_lhs => rw [hk]
    rw [List.append_assoc, List.replicate_append_replicate, List.take_append,
      List.take_of_length_le h, List.take_replicate]
    congr 2
    omega
  rw [this, trim_append_blanks, trim_trim]

/-! ## Release -/

theorem inv_release {v : Nat} {s : State} {F : Nat → List Addr} (hI : Inv s F) :
    ∃ s' F', deallocate v s = .ok s' ∧ Inv s' F' ∧ s'.vars = upd s.vars v none ∧
      s'.comms = s.comms := by
  have idem : ∀ f : Nat → Option Addr, f v = none → upd f v none = f := fun f h => by
    funext w
    by_cases e : w = v
    · subst e; rw [upd_same, h]
    · rw [upd_ne _ _ e]
  unfold deallocate
  cases e : s.vars v with
  | none =>
    simp only
    refine ⟨_, F, rfl, ?_, rfl, rfl⟩
    rw [idem _ e]; exact hI
  | some a =>
    obtain ⟨s', F', e', h1, h2, h3⟩ := inv_deallocate (v := v) hI
    refine ⟨{ s' with vars := upd s'.vars v none }, F', by simp only [e']; rfl, ?_, ?_, h3⟩
    · rw [idem _ (by rw [h2, upd_same])]; exact h1
    · show upd s'.vars v none = _
      rw [idem _ (by rw [h2, upd_same]), h2]

/-- The same, when a matrix is there. -/
theorem release_eq {v : Nat} {s : State} {F : Nat → List Addr} (hI : Inv s F) {a : Addr}
    (hv : s.vars v = some a) :
    deallocate v s = .ok ⟨minus s.mem (F v), upd s.vars v none, s.comms⟩ := by
  unfold deallocate
  rw [hv]
  simp only
  rw [deallocate_eq hI hv]
  show Res.ok _ = Res.ok _
  congr 1
  show (⟨_, _, _⟩ : State) = _
  congr 1
  funext w
  by_cases e : w = v
  · subst e; rw [upd_same, upd_same]
  · rw [upd_ne _ _ e]

/-! ## What a constructor leaves behind -/

theorem store_shape {a : Addr} {o : Obj} {h h' : Mem} (e : store a o h = .ok h') :
    h' = upd h a (some o) := by
  unfold store at e
  split at e
  · cases e
  · cases e; rfl

theorem zeroLocal_shape {al : Alloc} {t : Typ} {hd : Hdr} {h h' : Mem} {a : Addr}
    (e : zeroLocal al t hd h = .ok (a, h')) :
    getType h' (some a) = .ok t ∧ header h' (some a) = .ok hd ∧ hd.prec ≠ .uninitialized := by
  have bind_ok' : ∀ {α β : Type} {m : Res α} {k : α → Res β} {y : β}, (m >>= k) = .ok y →
      ∃ x, m = .ok x ∧ k x = .ok y := by
    intro α β m k y hy
    cases m with
    | ok x => exact ⟨x, rfl, hy⟩
    | error => cases hy
    | ub => cases hy
  unfold zeroLocal at e
  split at e
  · cases e
  · unfold newLocal at e
    cases t with
    | uninitialized => cases e
    | distributed2d => cases e
    | dense =>
      simp only at e
      split at e
      · cases e
      · next hp =>
        unfold newDense at e
        obtain ⟨⟨L, h1⟩, -, e⟩ := bind_ok' e
        simp only at e
        split at e
        · obtain ⟨⟨d1, h2⟩, -, e⟩ := bind_ok' e
          obtain ⟨⟨d2, h3⟩, -, e⟩ := bind_ok' e
          obtain ⟨h4, es, e⟩ := bind_ok' e
          cases e
          rw [store_shape es]
          exact ⟨by simp [getType, upd_same], by simp [header, upd_same], hp⟩
        · cases e
    | ellpack =>
      simp only at e
      split at e
      · cases e
      · next hp =>
        unfold newEllpack at e
        obtain ⟨⟨L, h1⟩, -, e⟩ := bind_ok' e
        simp only at e
        split at e
        · obtain ⟨⟨d1, h2⟩, -, e⟩ := bind_ok' e
          obtain ⟨⟨d2, h3⟩, -, e⟩ := bind_ok' e
          obtain ⟨h4, es, e⟩ := bind_ok' e
          cases e
          rw [store_shape es]
          exact ⟨by simp [getType, upd_same], by simp [header, upd_same], hp⟩
        · cases e
    | csr =>
      simp only at e
      split at e
      · cases e
      · next hp =>
        unfold newCsr at e
        obtain ⟨⟨L, h1⟩, -, e⟩ := bind_ok' e
        simp only at e
        split at e
        · obtain ⟨⟨rs, h2⟩, -, e⟩ := bind_ok' e
          obtain ⟨h3, -, e⟩ := bind_ok' e
          obtain ⟨h4, es, e⟩ := bind_ok' e
          cases e
          rw [store_shape es]
          exact ⟨by simp [getType, upd_same], by simp [header, upd_same], hp⟩
        · cases e
    | ellblock =>
      simp only at e
      split at e
      · cases e
      · next hp =>
        unfold newEllblock at e
        obtain ⟨⟨L, h1⟩, -, e⟩ := bind_ok' e
        simp only at e
        split at e
        · obtain ⟨h3, -, e⟩ := bind_ok' e
          obtain ⟨h4, es, e⟩ := bind_ok' e
          cases e
          rw [store_shape es]
          exact ⟨by simp [getType, upd_same], by simp [header, upd_same], hp⟩
        · cases e

/-- What a matrix variable stands for: the type and the header the constructor was given; for a
distributed matrix also the type of its tile. -/
inductive Is (h : Mem) (A : Option Addr) (t : Typ) (hd : Hdr) : Bool → Prop
  | loc : t ≠ .distributed2d → t ≠ .uninitialized → getType h A = .ok t → header h A = .ok hd →
      hd.prec ≠ .uninitialized → Is h A t hd false
  | dist {l p} : t ≠ .distributed2d → t ≠ .uninitialized → getType h A = .ok .distributed2d →
      header h A = .ok hd → localMatrix h A = .ok l → getType h l = .ok t →
      header h l = .ok (hd.tile p) → hd.prec ≠ .uninitialized → Is h A t hd true

theorem zero_is {al : Alloc} {v : Nat} {t : Typ} {hd : Hdr} {s s' : State}
    (e : zero al v t hd s = .ok s') : Is s'.mem (s'.vars v) t hd false := by
  unfold zero at e
  cases hz : zeroLocal al t hd s.mem with
  | error => rw [hz] at e; cases e
  | ub => rw [hz] at e; cases e
  | ok r =>
    obtain ⟨a, h⟩ := r
    rw [hz] at e
    cases e
    obtain ⟨h1, h2, h3⟩ := zeroLocal_shape hz
    show Is h (upd s.vars v (some a) v) t hd false
    rw [upd_same]
    refine .loc ?_ ?_ h1 h2 h3
    · rintro rfl; simp [zeroLocal, newLocal] at hz
    · rintro rfl; simp [zeroLocal, newLocal] at hz

theorem zeroDist_is {al : Alloc} (ha : Good al) {p v : Nat} {t : Typ} {hd : Hdr} {s s' : State}
    (hb : Bounded s.mem) (e : zeroDist al p v t hd s = .ok s') :
    Is s'.mem (s'.vars v) t hd true := by
  unfold zeroDist at e
  split at e
  · cases e
  · have w1 := wp_malloc (E := True) ha (.inl trivial) hb
    cases hm : malloc al s.mem with
    | error => rw [hm] at e; cases e
    | ub => rw [hm] at e; cases e
    | ok r =>
      obtain ⟨a, h1⟩ := r
      rw [hm] at e w1
      simp only [Res.wp_ok] at w1
      obtain ⟨g1, -, b1⟩ := w1
      have w2 := wp_zeroLocal (E := True) ha (.inl trivial) (t := t) (hd := hd.tile p)
        (.inl trivial) b1
      simp only [Res.pure_eq, Res.bind_ok] at e
      cases hz : zeroLocal al t (hd.tile p) h1 with
      | error => rw [hz] at e; cases e
      | ub => rw [hz] at e; cases e
      | ok r =>
        obtain ⟨l, h2⟩ := r
        rw [hz] at e w2
        obtain ⟨L, g2, o2, -⟩ := w2
        simp only at g2 o2
        simp only [Res.bind_ok] at e
        cases hs : store a (.dist hd l) h2 with
        | error => rw [hs] at e; cases e
        | ub => rw [hs] at e; cases e
        | ok h3 =>
          rw [hs] at e
          cases e
          rw [store_shape hs]
          obtain ⟨k1, k2, k3⟩ := zeroLocal_shape hz
          have haL : a ∉ L := fun hx => g1.live a (by simp) (g2.fresh a hx)
          have hla : l ≠ a := fun e => haL (e ▸ o2.self)
          have hl : upd h2 a (some (.dist hd l)) l = h2 l := upd_ne _ _ hla
          have ht : getType (upd h2 a (some (.dist hd l))) (some a) = .ok .distributed2d := by
            simp [getType, upd_same]
          show Is (upd h2 a (some (.dist hd l))) (upd s.vars v (some a) v) t hd true
          rw [upd_same]
          refine .dist (l := some l) (p := p) ?_ ?_ ht (by simp [header, upd_same]) ?_ ?_ ?_ k3
          · rintro rfl; simp [zeroLocal, newLocal] at hz
          · rintro rfl; simp [zeroLocal, newLocal] at hz
          · unfold localMatrix
            rw [ht, Res.bind_ok]
            simp [upd_same]
          · rw [← k1]; unfold getType; simp only [hl]
          · rw [← k2]; unfold header; simp only [hl]

/-! ## Programs -/

/-- Which variables hold a matrix after a statement, when `l` says which did before. -/
def holdsAfter (l : Nat → Bool) : Cmd → Nat → Bool
  | .zero v _ _ _ _ _ _ _ _ => upd l v true
  | .copyNew _ b => upd l b true
  | .deallocate v => upd l v false
  | _ => l

/-- The same for a program. -/
def holdsAfterAll : (Nat → Bool) → List Cmd → Nat → Bool
  | l, [] => l
  | l, c :: cs => holdsAfterAll (holdsAfter l c) cs

/-- Statements other than the assignment of matrix variables and `bml_clear`. -/
def Safe : Cmd → Prop
  | .assign _ _ | .clear _ => False
  | _ => True

/-- Queries answered for every variable, whether it holds a matrix or not. -/
def Answered : Query → Prop
  | .allocated | .n | .m | .precision => True
  | _ => False

/-- The names and numbers that `bml_zero_matrix` accepts, on a grid of `p × p` processes if a
distributed matrix is made. -/
structure ValidArgs (mpi : Bool) (p : Nat) (mt et : Str) (kind n m : Nat) (dm : Option Str) :
    Prop where
  type : trim mt ∈ [nDense, nEllpack, nEllblock, nCsr]
  element : trim et ∈ [nReal, nComplex]
  kind : kind ∈ [4, 8]
  mode : trim (dm.getD nSequential) ∈ [nSequential, nDistributed, nGraph]
  width : trim mt = nEllpack → 0 < m
  tiles : mpi = true → trim (dm.getD nSequential) = nDistributed → 0 < n ∧ p ∣ n ∧ p ≤ m

/-- Statements that are not refused. -/
def Accepted (mpi : Bool) (p : Nat) (l : Nat → Bool) : Cmd → Prop
  | .zero _ mt et kind n m dm _ _ => ValidArgs mpi p mt et kind n m dm
  | .copyNew a b => a ≠ b ∧ l a = true
  | .deallocate _ => True
  | .growRow v _ | .addBlock v _ | .dropBlock v _ => l v = true
  | .query _ q => Answered q
  | _ => False

/-- A program of accepted statements. -/
def AllAccepted (mpi : Bool) (p : Nat) : (Nat → Bool) → List Cmd → Prop
  | _, [] => True
  | l, c :: cs => Accepted mpi p l c ∧ AllAccepted mpi p (holdsAfter l c) cs

theorem nDense_ne : nEllpack ≠ nDense ∧ nEllblock ≠ nDense ∧ nEllblock ≠ nEllpack ∧
    nCsr ≠ nDense ∧ nCsr ≠ nEllpack ∧ nCsr ≠ nEllblock ∧ nComplex ≠ nReal ∧
    nDistributed ≠ nSequential ∧ nGraph ≠ nSequential ∧ nGraph ≠ nDistributed := by decide

/-- The number for a matrix name, and the type it stands for. -/
theorem matrixId_eq {mt : Str} (h : trim mt ∈ [nDense, nEllpack, nEllblock, nCsr]) :
    ∃ k, matrixId mt = .ok k ∧ typOf k ≠ .uninitialized ∧ typOf k ≠ .distributed2d ∧
      (typOf k = .ellpack → trim mt = nEllpack) ∧
      (trim mt = nDense → typOf k = .dense) ∧ (trim mt = nEllpack → typOf k = .ellpack) ∧
      (trim mt = nEllblock → typOf k = .ellblock) ∧ (trim mt = nCsr → typOf k = .csr) := by
  simp only [List.mem_cons, List.not_mem_nil, or_false] at h
  unfold matrixId
  rcases h with h | h | h | h <;> rw [h]
  · exact ⟨1, rfl, by decide⟩
  · exact ⟨2, rfl, by decide⟩
  · exact ⟨3, rfl, by decide⟩
  · exact ⟨4, rfl, by decide⟩

theorem elementId_eq (junk : Nat) {et : Str} {kind : Nat} (h : trim et ∈ [nReal, nComplex])
    (hk : kind ∈ [4, 8]) :
    precOf (elementId junk et kind) ≠ .uninitialized ∧
      (trim et = nReal → kind = 4 → precOf (elementId junk et kind) = .singleReal) ∧
      (trim et = nReal → kind = 8 → precOf (elementId junk et kind) = .doubleReal) ∧
      (trim et = nComplex → kind = 4 → precOf (elementId junk et kind) = .singleComplex) ∧
      (trim et = nComplex → kind = 8 → precOf (elementId junk et kind) = .doubleComplex) := by
  simp only [List.mem_cons, List.not_mem_nil, or_false] at h hk
  have hne := nDense_ne.2.2.2.2.2.2.1
  unfold elementId
  rcases h with h | h <;> rcases hk with rfl | rfl <;> rw [h] <;>
    simp [precOf, hne, hne.symm]

theorem dmodeId_eq {s : Str} (h : trim s ∈ [nSequential, nDistributed, nGraph]) :
    ∃ k, dmodeId (char20 s) = .ok k ∧ (modeOf k = .distributed ↔ trim s = nDistributed) ∧
      (trim s = nSequential → modeOf k = .sequential) ∧
      (trim s = nGraph → modeOf k = .graphDistributed) := by
  simp only [List.mem_cons, List.not_mem_nil, or_false] at h
  have hl : (trim s).length ≤ 20 := by rcases h with h | h | h <;> rw [h] <;> decide
  unfold dmodeId
  rw [trim_char20 hl]
  rcases h with h | h | h <;> rw [h]
  · exact ⟨0, rfl, by decide⟩
  · exact ⟨1, rfl, by decide⟩
  · exact ⟨2, rfl, by decide⟩

theorem matrixId_ne_ub (s : Str) : matrixId s ≠ .ub := by
  unfold matrixId
  repeat' split
  all_goals simp

theorem dmodeId_ne_ub (s : Str) : dmodeId s ≠ .ub := by
  unfold dmodeId
  repeat' split
  all_goals simp

section

variable {al : Alloc} {E : Prop}

theorem wp_zeroMatrix (ha : Good al) (hE : E ∨ Total al) {mpi : Bool} {p junk nb v : Nat}
    {mt et : Str} {kind n m : Nat} {dm : Option Str} {s : State} {F : Nat → List Addr}
    (hI : Inv s F) (hv : E ∨ ValidArgs mpi p mt et kind n m dm) :
    (zeroMatrix al mpi p junk nb v mt et kind n m dm s).wp E fun s' => ∃ F' a, Inv s' F' ∧
      s'.vars = upd s.vars v (some a) := by
  obtain ⟨s1, F1, e1, hI1, hv1, -⟩ := inv_release (v := v) hI
  unfold zeroMatrix
  rw [e1, Res.bind_ok]
  have hn : s1.vars v = none := by rw [hv1, upd_same]
  have fin : ∀ a, upd s1.vars v (some a) = upd s.vars v (some a) := fun a => by
    rw [hv1]
    funext w
    by_cases e : w = v
    · subst e; rw [upd_same, upd_same]
    · rw [upd_ne _ _ e, upd_ne _ _ e, upd_ne _ _ e]
  have key : ∀ (t : Typ) (d : Mode), (E ∨ (ValidLocal t ⟨precOf (elementId junk et kind), n, m, nb, d⟩ ∧
      (mpi = true ∧ d = .distributed →
        ValidDist p t ⟨precOf (elementId junk et kind), n, m, nb, d⟩))) →
      (if mpi = true ∧ d = .distributed then
        zeroDist al p v t ⟨precOf (elementId junk et kind), n, m, nb, d⟩ s1
      else zero al v t ⟨precOf (elementId junk et kind), n, m, nb, d⟩ s1).wp E
        fun s' => ∃ F' a, Inv s' F' ∧ s'.vars = upd s.vars v (some a) := by
    intro t d hv
    rw [Res.wp_ite]
    constructor
    · intro hc
      refine Res.wp_mono (wp_zeroDist ha hE (hv.imp id fun h => h.2 hc) hI1 hn) ?_
      rintro s' ⟨F', a, h1, h2, -⟩
      exact ⟨F', a, h1, h2.trans (fin a)⟩
    · intro _
      refine Res.wp_mono (wp_zero ha hE (hv.imp id And.left) hI1 hn) ?_
      rintro s' ⟨F', a, h1, h2, -⟩
      exact ⟨F', a, h1, h2.trans (fin a)⟩
  rcases hv with hE' | hv
  · cases e2 : matrixId mt with
    | error => exact hE'
    | ub => exact absurd e2 (matrixId_ne_ub mt)
    | ok t =>
      rw [Res.bind_ok]
      cases e3 : dmodeId (char20 (dm.getD nSequential)) with
      | error => exact hE'
      | ub => exact absurd e3 (dmodeId_ne_ub _)
      | ok d => exact key (typOf t) (modeOf d) (.inl hE')
  · obtain ⟨t, et', t1, t2, t3, -⟩ := matrixId_eq hv.type
    obtain ⟨d, ed, d1, -⟩ := dmodeId_eq hv.mode
    rw [et', Res.bind_ok, ed, Res.bind_ok]
    refine key (typOf t) (modeOf d) (.inr ?_)
    have hp := (elementId_eq junk hv.element hv.kind).1
    refine ⟨⟨t1, t2, hp, fun h => hv.width (t3 h)⟩, fun ⟨h1, h2⟩ => ?_⟩
    obtain ⟨n0, pn, pm⟩ := hv.tiles h1 (d1.1 h2)
    have p0 : 0 < p := Nat.pos_of_dvd_of_pos pn n0
    exact ⟨n0, by show 0 < m; omega, Nat.div_mul_cancel pn, t1, t2, hp, fun _ => Nat.div_pos pm p0⟩

/-- Queries never read memory that is not there. -/
theorem wp_query {h : Mem} {A : Option Addr} (hA : ∀ a, A = some a → ∃ L, Own h a L)
    (q : Query) (hq : E ∨ Answered q) : (query h A q).wp E fun _ => True := by
  cases A with
  | none =>
    cases q with
    | rowBandwidth i =>
      have hE : E := hq.elim id False.elim
      have : i - 1 < 0 ∨ (-1 : Int) ≤ i - 1 := by omega
      simp [query, Handle.query, getType, getN, this, hE]
    | _ => simp_all [query, Handle.query, getType, getN, localMatrix, Answered, passInt, typeName,
        typNum, precNum, precisionKind, elementName]
  | some a =>
    obtain ⟨L, hO⟩ := hA a rfl
    obtain ⟨t, hd, e1, e2, e3, e4⟩ := hO.type
    have hN : getN h (some a) = .ok hd.N := by
      unfold getN
      rw [e1]
      cases t <;> simp_all
    have hname : E → ∀ t : Typ, (do
        let s ← typeName (typNum t)
        pure (Obs.name s) : Res Obs).wp E fun _ => True := fun hE t => by
      cases t <;> simp [typNum, typeName, hE]
    have hel : E → ∀ t : Prec, (do
        let s ← elementName (precNum t)
        pure (Obs.name s) : Res Obs).wp E fun _ => True := fun hE t => by
      cases t <;> simp [precNum, elementName, hE]
    have hk : E → ∀ t : Prec, (do
        let s ← precisionKind (precNum t)
        pure (Obs.int s) : Res Obs).wp E fun _ => True := fun hE t => by
      cases t <;> simp [precNum, precisionKind, hE]
    have hm : E → ∀ t : Mode, (do
        let s ← modeName (modeNum t)
        pure (Obs.name s) : Res Obs).wp E fun _ => True := fun hE t => by
      cases t <;> simp [modeNum, modeName, hE]
    have hprec : ∃ p, Handle.query h (some a) .precision = .ok (.prec p) := by
      by_cases ht : t = .distributed2d
      · subst ht
        obtain ⟨l, K, e5, hl⟩ := e4 rfl
        obtain ⟨t', hd', f1, f2, f3, -⟩ := (Own.loc hl).type
        have hlm : localMatrix h (some a) = .ok (some l) := by
          unfold localMatrix
          rw [e1]
          simp [e5]
        cases t' <;> simp_all [Handle.query]
      · cases t <;> simp_all [Handle.query]
    have hdeep : ∃ t, Handle.query h (some a) .deepType = .ok (.typ t) := by
      by_cases ht : t = .distributed2d
      · subst ht
        obtain ⟨l, K, e5, hl⟩ := e4 rfl
        obtain ⟨t', hd', f1, f2, f3, -⟩ := (Own.loc hl).type
        have hlm : localMatrix h (some a) = .ok (some l) := by
          unfold localMatrix
          rw [e1]
          simp [e5]
        simp [Handle.query, e1, hlm, f1]
      · cases t <;> simp_all [Handle.query]
    obtain ⟨pr, hprec⟩ := hprec
    obtain ⟨td, hdeep⟩ := hdeep
    cases q with
    | allocated => simp [query, Handle.query, hN]
    | n => simp [query, Handle.query, hN, passInt]
    | m => clear hprec hdeep; cases t <;> simp_all [query, Handle.query, passInt]
    | rowBandwidth i =>
      have hE : E := hq.elim id False.elim
      simp only [query, Handle.query, hN, Res.bind_ok]
      by_cases hi : i - 1 < 0 ∨ (hd.N : Int) ≤ i - 1
      · rw [if_pos hi]; exact hE
      · rw [if_neg hi]
        cases t <;> simp [e1, hE, passInt]
    | bandwidth =>
      have hE : E := hq.elim id False.elim
      cases t <;> simp [query, Handle.query, e1, hE, passInt]
    | type =>
      have hE : E := hq.elim id False.elim
      simp only [query, Handle.query, e1, Res.bind_ok, Res.pure_eq]
      exact hname hE t
    | deepType =>
      have hE : E := hq.elim id False.elim
      simp only [query, hdeep, Res.bind_ok]
      exact hname hE td
    | precision => simp [query, hprec]
    | elementPrecision =>
      have hE : E := hq.elim id False.elim
      simp only [query, hprec, Res.bind_ok]
      exact hk hE pr
    | elementType =>
      have hE : E := hq.elim id False.elim
      simp only [query, hprec, Res.bind_ok]
      exact hel hE pr
    | distributionMode =>
      have hE : E := hq.elim id False.elim
      cases t <;> simp only [query, Handle.query, e1, e2, Res.bind_ok, Res.pure_eq]
      case dense => exact hm hE hd.mode
      case ellpack => exact hm hE hd.mode
      case csr => exact hm hE hd.mode
      all_goals exact hE
    | sparsity =>
      clear hprec hdeep
      cases t <;> simp_all [query, Handle.query, passInt]

theorem wp_step (ha : Good al) (hE : E ∨ Total al) {mpi : Bool} {p : Nat} {c : Cmd} {s : State}
    {F : Nat → List Addr} {l : Nat → Bool} (hI : Inv s F) (hl : ∀ v, (s.vars v).isSome = l v)
    (hs : Safe c) (hc : E ∨ Accepted mpi p l c) :
    (step al mpi p c s).wp E fun s' => (∃ F', Inv s' F') ∧
      ∀ v, (s'.vars v).isSome = holdsAfter l c v := by
  have some_of : ∀ {v}, l v = true → s.vars v ≠ none := by
    intro v h e
    rw [← hl v, e] at h
    cases h
  have after_some : ∀ {v a vs}, vs = upd s.vars v (some a) →
      ∀ w, (vs w).isSome = upd l v true w := by
    rintro v a _ rfl w
    by_cases e : w = v
    · subst e; rw [upd_same, upd_same]; rfl
    · rw [upd_ne _ _ e, upd_ne _ _ e]; exact hl w
  have same : ∀ {m : Res State}, (m.wp E fun s' => ∃ F', Inv s' F' ∧ s'.vars = s.vars) →
      m.wp E fun s' => (∃ F', Inv s' F') ∧ ∀ v, (s'.vars v).isSome = l v := by
    intro m hm
    refine Res.wp_mono hm ?_
    rintro s' ⟨F', h1, h2⟩
    exact ⟨⟨F', h1⟩, fun v => by rw [h2]; exact hl v⟩
  cases c with
  | zero v mt et kind n m dm junk nb =>
    refine Res.wp_mono (wp_zeroMatrix ha hE hI hc) ?_
    rintro s' ⟨F', a, h1, h2⟩
    exact ⟨⟨F', h1⟩, after_some h2⟩
  | copyNew a b =>
    obtain ⟨s1, F1, e1, hI1, hv1, -⟩ := inv_release (v := b) hI
    show (copyNew al a b s).wp _ _
    unfold copyNew
    rw [e1, Res.bind_ok]
    refine Res.wp_mono (wp_copyNew ha hE hI1 (by rw [hv1, upd_same]) (hc.imp id ?_)) ?_
    · rintro ⟨hab, h⟩
      rw [hv1, upd_ne _ _ hab]
      exact some_of h
    · rintro s' ⟨F', x, h1, h2⟩
      refine ⟨⟨F', h1⟩, after_some (a := x) (h2.trans ?_)⟩
      rw [hv1]
      funext w
      by_cases e : w = b
      · subst e; rw [upd_same, upd_same]
      · rw [upd_ne _ _ e, upd_ne _ _ e, upd_ne _ _ e]
  | deallocate v =>
    obtain ⟨s1, F1, e1, hI1, hv1, -⟩ := inv_release (v := v) hI
    show (deallocate v s).wp _ _
    rw [e1]
    refine ⟨⟨F1, hI1⟩, fun w => ?_⟩
    show (s1.vars w).isSome = upd l v false w
    rw [hv1]
    by_cases e : w = v
    · subst e; rw [upd_same, upd_same]; rfl
    · rw [upd_ne _ _ e, upd_ne _ _ e]; exact hl w
  | clear v => exact hs.elim
  | growRow v i => exact same (wp_growRow ha hE hI (hc.imp id some_of))
  | addBlock v k => exact same (wp_addBlock ha hE hI (hc.imp id some_of))
  | dropBlock v k => exact same (wp_dropBlock hI (hc.imp id some_of))
  | query v q =>
    show (query s.mem (s.vars v) q >>= _).wp _ _
    rw [Res.wp_bind]
    refine Res.wp_mono (wp_query (fun a e => ⟨F v, hI.own v a e⟩) q hc) ?_
    intro o _
    exact ⟨⟨F, hI⟩, hl⟩
  | assign v w => exact hs.elim

theorem wp_run (ha : Good al) (hE : E ∨ Total al) {mpi : Bool} {p : Nat} (cs : List Cmd)
    {s : State} {F : Nat → List Addr} {l : Nat → Bool} (hI : Inv s F)
    (hl : ∀ v, (s.vars v).isSome = l v) (hs : ∀ c ∈ cs, Safe c)
    (hc : E ∨ AllAccepted mpi p l cs) :
    (run al mpi p cs s).wp E fun s' => (∃ F', Inv s' F') ∧
      ∀ v, (s'.vars v).isSome = holdsAfterAll l cs v := by
  induction cs generalizing s F l with
  | nil => exact ⟨⟨F, hI⟩, hl⟩
  | cons c cs ih =>
    unfold run
    rw [Res.wp_bind]
    refine Res.wp_mono (wp_step ha hE hI hl (hs c List.mem_cons_self) (hc.imp id And.left)) ?_
    rintro s' ⟨⟨F', h1⟩, h2⟩
    exact ih h1 h2 (fun c hc => hs c (List.mem_cons_of_mem _ hc)) (hc.imp id And.right)

end

theorem run_inv {al : Alloc} (ha : Good al) {mpi : Bool} {p : Nat} {cs : List Cmd}
    (hs : ∀ c ∈ cs, Safe c) {s : State} (h : run al mpi p cs State.init = .ok s) :
    (∃ F, Inv s F) ∧ ∀ v, (s.vars v).isSome = holdsAfterAll (fun _ => false) cs v := by
  have hw := wp_run (E := True) (mpi := mpi) (p := p) ha (.inl trivial) cs inv_init
    (fun _ => rfl) hs (.inl trivial)
  rw [h] at hw
  exact hw

end Bml.Fortran
