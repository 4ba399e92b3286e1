import Verif.Common.HandleInv
import Verif.Wlp

/-!
# C47: handles

A caller that follows two rules — a handle that holds a matrix is not overwritten, and handles are
not assigned to each other — may call construction, copying, release, clearing, writing and
introspection in any order: nothing that is not allocated is ever read or released, and when every
handle is `NULL` again no memory is left.  Breaking either rule is shown to fail.
-/

namespace Bml.Handle

/-! ## Specification -/

/-- Which handles hold a matrix after a call, when `l` says which did before. -/
def Spec.after (l : Nat → Bool) : Cmd → Nat → Bool
  | .zero v _ _ => upd l v true
  | .zeroDist v _ _ => upd l v true
  | .copyNew v _ => upd l v true
  | .deallocate v => upd l v false
  | _ => l

/-- The caller's rules. -/
def Spec.Rule (l : Nat → Bool) : Cmd → Prop
  | .zero v _ _ => l v = false
  | .zeroDist v _ _ => l v = false
  | .copyNew v _ => l v = false
  | .assign _ _ => False
  | _ => True

/-- A sequence of calls that follows the rules. -/
def Spec.Ruled : (Nat → Bool) → List Cmd → Prop
  | _, [] => True
  | l, c :: cs => Spec.Rule l c ∧ Spec.Ruled (Spec.after l c) cs

/-- Which handles hold a matrix after a sequence of calls. -/
def Spec.afterAll : (Nat → Bool) → List Cmd → Nat → Bool
  | l, [] => l
  | l, c :: cs => Spec.afterAll (Spec.after l c) cs

/-- Queries that are answered for every handle, `NULL` or not. -/
def Spec.Answered : Query → Prop
  | .allocated | .type | .deepType | .precision | .N | .M => True
  | _ => False

/-- Calls that the library does not refuse: valid arguments, and a matrix where one is needed. -/
def Spec.Accepted (p : Nat) (l : Nat → Bool) : Cmd → Prop
  | .zero _ t hd => ValidLocal t hd
  | .zeroDist _ t hd => ValidDist p t hd
  | .copyNew _ w => l w = true
  | .deallocate _ => True
  | .clear v => l v = true
  | .growRow v _ => l v = true
  | .addBlock v _ => l v = true
  | .dropBlock v _ => l v = true
  | .query _ q => Spec.Answered q
  | .assign _ _ => True

/-- A sequence of accepted calls. -/
def Spec.AllAccepted (p : Nat) : (Nat → Bool) → List Cmd → Prop
  | _, [] => True
  | l, c :: cs => Spec.Accepted p l c ∧ Spec.AllAccepted p (Spec.after l c) cs

/-! ## Lemmas -/

/-- The type and header of an owned matrix. -/
theorem Own.type {h : Mem} {a : Addr} {L : List Addr} (hO : Own h a L) :
    ∃ t hd, getType h (some a) = .ok t ∧ header h (some a) = .ok hd ∧ t ≠ .uninitialized ∧
      (t = .distributed2d → ∃ l K, h a = some (.dist hd l) ∧ OwnLocal h l K) := by
  cases hO with
  | loc h1 =>
    cases h1 with
    | @dense hd _ _ _ _ _ e _ _ _ =>
      exact ⟨.dense, hd, by simp [getType, e], by simp [header, e], by simp, by simp⟩
    | @ellpack hd _ _ _ _ _ _ _ e _ _ _ =>
      exact ⟨.ellpack, hd, by simp [getType, e], by simp [header, e], by simp, by simp⟩
    | @csr hd _ _ _ e _ _ =>
      exact ⟨.csr, hd, by simp [getType, e], by simp [header, e], by simp, by simp⟩
    | @ellblock hd _ _ _ _ _ e _ _ _ =>
      exact ⟨.ellblock, hd, by simp [getType, e], by simp [header, e], by simp, by simp⟩
  | @dist hd l K h1 h2 =>
    exact ⟨.distributed2d, hd, by simp [getType, h1], by simp [header, h1], by simp,
      fun _ => ⟨l, K, h1, h2⟩⟩

theorem wp_getN {E : Prop} {h : Mem} {A : Option Addr} (hA : ∀ a, A = some a → ∃ L, Own h a L) :
    (getN h A).wp E fun _ => True := by
  cases A with
  | none => exact trivial
  | some a =>
    obtain ⟨L, hO⟩ := hA a rfl
    obtain ⟨t, hd, e1, e2, e3, _⟩ := hO.type
    unfold getN
    rw [e1]
    cases t <;> simp_all

theorem wp_query {E : Prop} {h : Mem} {A : Option Addr} (hA : ∀ a, A = some a → ∃ L, Own h a L)
    (q : Query) (hq : E ∨ Spec.Answered q) : (query h A q).wp E fun _ => True := by
  cases A with
  | none =>
    cases q <;> simp_all [query, getType, getN, localMatrix, Spec.Answered]
  | some a =>
    obtain ⟨L, hO⟩ := hA a rfl
    have hn := wp_getN (E := E) hA
    obtain ⟨t, hd, e1, e2, e3, e4⟩ := hO.type
    by_cases ht : t = .distributed2d
    · subst ht
      obtain ⟨l, K, e5, hl⟩ := e4 rfl
      obtain ⟨t', hd', f1, f2, f3, _⟩ := (Own.loc hl).type
      have hlm : localMatrix h (some a) = .ok (some l) := by
        unfold localMatrix
        rw [e1]
        simp [e5]
      cases q with
      | rowBandwidth i =>
        have hE : E := hq.elim id False.elim
        unfold query
        rw [Res.wp_bind]
        refine Res.wp_mono hn ?_
        intro n _
        simp only [e1, Res.bind_ok]
        split <;> simp [hE]
      | allocated => unfold query; rw [Res.wp_bind]; exact Res.wp_mono hn fun _ _ => trivial
      | N => unfold query; rw [Res.wp_bind]; exact Res.wp_mono hn fun _ _ => trivial
      | type => simp [query, e1]
      | deepType => simp [query, e1, hlm, f1]
      | precision => cases t' <;> simp_all [query]
      | M => simp [query, e1, e2]
      | NB => exact hq.elim (fun h => by simpa [query, e1] using h) False.elim
      | distributionMode => exact hq.elim (fun h => by simpa [query, e1] using h) False.elim
      | bandwidth => exact hq.elim (fun h => by simpa [query, e1] using h) False.elim
      | sparsity => simp [query, e1]
      | localMatrix => simp [query, hlm]
      | dataPtr => exact hq.elim (fun h => by simpa [query, e1] using h) False.elim
    · have hlm : localMatrix h (some a) = .error := by
        unfold localMatrix
        rw [e1]
        cases t <;> simp_all
      cases q with
      | rowBandwidth i =>
        have hE : E := hq.elim id False.elim
        unfold query
        rw [Res.wp_bind]
        refine Res.wp_mono hn ?_
        intro n _
        simp only [e1, Res.bind_ok]
        split
        · exact hE
        · cases t <;> simp [hE]
      | allocated => unfold query; rw [Res.wp_bind]; exact Res.wp_mono hn fun _ _ => trivial
      | N => unfold query; rw [Res.wp_bind]; exact Res.wp_mono hn fun _ _ => trivial
      | localMatrix => exact hq.elim (fun h => by simpa [query, hlm] using h) False.elim
      | _ => cases t <;> simp_all [query, Spec.Answered]

theorem wp_step {al : Alloc} {E : Prop} (ha : Good al) (hE : E ∨ Total al) {p : Nat} {c : Cmd}
    {s : State} {F : Nat → List Addr} {l : Nat → Bool} (hI : Inv s F)
    (hl : ∀ v, (s.vars v).isSome = l v) (hr : Spec.Rule l c) (hc : E ∨ Spec.Accepted p l c) :
    (step al p c s).wp E fun r => ∃ F', Inv r.1 F' ∧
      ∀ v, (r.1.vars v).isSome = Spec.after l c v := by
  have none_of : ∀ {v}, l v = false → s.vars v = none := by
    intro v h
    rw [← hl v] at h
    cases e : s.vars v with
    | none => rfl
    | some _ => rw [e] at h; cases h
  have some_of : ∀ {v}, l v = true → s.vars v ≠ none := by
    intro v h e
    rw [← hl v, e] at h
    cases h
  have after_some : ∀ {v a vs}, vs = upd s.vars v (some a) →
      ∀ w, (vs w).isSome = upd l v true w := by
    rintro v a _ rfl w
    by_cases e : w = v
    · subst e; rw [upd_same, upd_same]; rfl
    · rw [upd_ne _ _ e, upd_ne _ _ e]; exact hl w
  have same : ∀ {m : Res State}, (m.wp E fun s' => ∃ F', Inv s' F' ∧ s'.vars = s.vars) →
      (m >>= fun s => pure (s, (none : Option Obs))).wp E fun r => ∃ F', Inv r.1 F' ∧
        ∀ v, (r.1.vars v).isSome = l v := by
    intro m hm
    rw [Res.wp_bind]
    refine Res.wp_mono hm ?_
    rintro s' ⟨F', h1, h2⟩
    exact ⟨F', h1, fun v => by show (s'.vars v).isSome = _; rw [h2]; exact hl v⟩
  cases c with
  | zero v t hd =>
    show (zero al v t hd s >>= _).wp _ _
    rw [Res.wp_bind]
    refine Res.wp_mono (wp_zero ha hE hc hI (none_of hr)) ?_
    rintro s' ⟨F', a, h1, h2, _⟩
    exact ⟨F', h1, after_some h2⟩
  | zeroDist v t hd =>
    show (zeroDist al p v t hd s >>= _).wp _ _
    rw [Res.wp_bind]
    refine Res.wp_mono (wp_zeroDist ha hE hc hI (none_of hr)) ?_
    rintro s' ⟨F', a, h1, h2, _⟩
    exact ⟨F', h1, after_some h2⟩
  | copyNew v w =>
    show (copyNew al v w s >>= _).wp _ _
    rw [Res.wp_bind]
    refine Res.wp_mono (wp_copyNew ha hE hI (none_of hr) (hc.imp id some_of)) ?_
    rintro s' ⟨F', a, h1, h2⟩
    exact ⟨F', h1, after_some h2⟩
  | deallocate v =>
    obtain ⟨s', F', e, h1, h2, _⟩ := inv_deallocate (v := v) hI
    show (deallocate v s >>= _).wp _ _
    rw [e]
    refine ⟨F', h1, fun w => ?_⟩
    show (s'.vars w).isSome = upd l v false w
    rw [h2]
    by_cases e : w = v
    · subst e; rw [upd_same, upd_same]; rfl
    · rw [upd_ne _ _ e, upd_ne _ _ e]; exact hl w
  | clear v => exact same (wp_clear hI (hc.imp id some_of))
  | growRow v i => exact same (wp_growRow ha hE hI (hc.imp id some_of))
  | addBlock v k => exact same (wp_addBlock ha hE hI (hc.imp id some_of))
  | dropBlock v k => exact same (wp_dropBlock hI (hc.imp id some_of))
  | query v q =>
    show (query s.mem (s.vars v) q >>= _).wp _ _
    rw [Res.wp_bind]
    refine Res.wp_mono (wp_query (fun a e => ⟨F v, hI.own v a e⟩) q hc) ?_
    intro o _
    exact ⟨F, hI, hl⟩
  | assign v w => exact hr.elim

theorem wp_run {al : Alloc} {E : Prop} (ha : Good al) (hE : E ∨ Total al) {p : Nat}
    (cs : List Cmd) {s : State} {F : Nat → List Addr} {l : Nat → Bool} (hI : Inv s F)
    (hl : ∀ v, (s.vars v).isSome = l v) (hr : Spec.Ruled l cs)
    (hc : E ∨ Spec.AllAccepted p l cs) :
    (run al p cs s).wp E fun s' => (∃ F', Inv s' F') ∧
      ∀ v, (s'.vars v).isSome = Spec.afterAll l cs v := by
  induction cs generalizing s F l with
  | nil => exact ⟨⟨F, hI⟩, hl⟩
  | cons c cs ih =>
    unfold run
    rw [Res.wp_bind]
    refine Res.wp_mono (wp_step ha hE hI hl hr.1 (hc.imp id And.left)) ?_
    rintro ⟨s', o⟩ ⟨F', h1, h2⟩
    exact ih h1 h2 hr.2 (hc.imp id And.right)

theorem run_inv {al : Alloc} (ha : Good al) {p : Nat} {cs : List Cmd}
    (hr : Spec.Ruled (fun _ => false) cs) {s : State} (hs : run al p cs State.init = .ok s) :
    (∃ F, Inv s F) ∧ ∀ v, (s.vars v).isSome = Spec.afterAll (fun _ => false) cs v := by
  have h := wp_run (E := True) (p := p) ha (.inl trivial) cs inv_init (fun _ => rfl) hr
    (.inl trivial)
  rw [hs] at h
  exact h

end Bml.Handle

namespace Bml.Props

open Bml.Handle

/-- An allocator that takes the first free one of the first thousand addresses. -/
def exAlloc : Alloc := fun h => (List.range 1000).find? fun x => (h x).isNone

theorem exAlloc_good : Good exAlloc := fun h a e => by
  have := List.find?_some e
  simpa using this

/-- An allocator that never fails on finite memory. -/
noncomputable def exTotal : Alloc := fun h =>
  open Classical in if hx : ∃ x, h x = none then some (Nat.find hx) else none

theorem exTotal_good : Good exTotal := fun h a e => by
  classical
  unfold exTotal at e
  split at e
  · next hx => cases e; exact Nat.find_spec hx
  · cases e

theorem exTotal_total : Total exTotal := fun h ⟨K, hK⟩ => by
  unfold exTotal
  rw [dif_pos ⟨K, hK K le_rfl⟩]
  simp

/-- **C47** `bml_deallocate` on a `NULL` handle does nothing. -/
theorem C47_deallocate_null {v : Nat} {s : State} (h : s.vars v = none) :
    deallocate v s = .ok s := by
  unfold deallocate; rw [h]

/-- **C47** After `bml_deallocate` the handle is `NULL`; the other handles are as they were. -/
theorem C47_deallocate_sets_null {v : Nat} {s s' : State} (h : deallocate v s = .ok s') :
    s'.vars v = none ∧ ∀ w, w ≠ v → s'.vars w = s.vars w := by
  unfold deallocate at h
  cases e : s.vars v with
  | none => rw [e] at h; cases h; exact ⟨e, fun _ _ => rfl⟩
  | some a =>
    rw [e] at h
    simp only at h
    cases e' : deallocMat a s.mem with
    | ok m => rw [e'] at h; cases h; exact ⟨upd_same .., fun w hw => upd_ne _ _ hw⟩
    | error => rw [e'] at h; cases h
    | ub => rw [e'] at h; cases h

/-- **C47** Introspection of a `NULL` handle returns the values for "not initialized", whatever the
memory holds. -/
theorem C47_null_introspection (h : Mem) :
    query h none .allocated = .ok (.int (-1)) ∧ query h none .type = .ok (.typ .uninitialized) ∧
    query h none .deepType = .ok (.typ .uninitialized) ∧
    query h none .precision = .ok (.prec .uninitialized) ∧ query h none .N = .ok (.int (-1)) ∧
    query h none .M = .ok (.int 0) ∧ query h none .NB = .ok (.int 0) :=
  ⟨rfl, rfl, rfl, rfl, rfl, rfl, rfl⟩

/-- **C47** The other introspection functions end the program on a `NULL` handle, with a message. -/
theorem C47_null_introspection_errors (h : Mem) (i : Int) :
    query h none .distributionMode = .error ∧ query h none (.rowBandwidth i) = .error ∧
    query h none .bandwidth = .error ∧ query h none .sparsity = .error ∧
    query h none .localMatrix = .error ∧ query h none .dataPtr = .error := by
  refine ⟨rfl, ?_, rfl, rfl, rfl, rfl⟩
  have : i < 0 ∨ (-1 : Int) ≤ i := by omega
  simp [query, getN, getType, this]

/-- **C47** `bml_clear` and `bml_copy_new` of a `NULL` handle end the program with a message. -/
theorem C47_null_calls {al : Alloc} {v w : Nat} {s : State} (h : s.vars v = none) :
    clear v s = .error ∧ copyNew al w v s = .error := by
  unfold clear copyNew; rw [h]; exact ⟨rfl, rfl⟩

/-- **C47** Every sequence of calls that follows the two rules, of any length and in any order, with
any allocator: nothing that is not allocated is read or released. -/
theorem C47_any_order {al : Alloc} (ha : Good al) (p : Nat) {cs : List Cmd}
    (hr : Spec.Ruled (fun _ => false) cs) : run al p cs State.init ≠ .ub := by
  have h := wp_run (E := True) (p := p) ha (.inl trivial) cs inv_init (fun _ => rfl) hr
    (.inl trivial)
  intro e
  rw [e] at h
  exact h

/-- **C47** If in addition no call is one the library refuses, and memory does not run out, the
sequence runs to its end. -/
theorem C47_runs {al : Alloc} (ha : Good al) (ht : Total al) {p : Nat} {cs : List Cmd}
    (hr : Spec.Ruled (fun _ => false) cs) (hc : Spec.AllAccepted p (fun _ => false) cs) :
    ∃ s, run al p cs State.init = .ok s := by
  obtain ⟨s, e, _⟩ := Res.wp_exists (wp_run (E := False) (p := p) ha (.inr ht) cs inv_init
    (fun _ => rfl) hr (.inr hc))
  exact ⟨s, e⟩

/-- **C47** After such a sequence the handles that are not `NULL` are the ones given a matrix and not
released since. -/
theorem C47_handles {al : Alloc} (ha : Good al) {p : Nat} {cs : List Cmd}
    (hr : Spec.Ruled (fun _ => false) cs) {s : State} (hs : run al p cs State.init = .ok s)
    (v : Nat) : s.vars v ≠ none ↔ Spec.afterAll (fun _ => false) cs v = true := by
  rw [← (run_inv ha hr hs).2 v, Option.isSome_iff_ne_none]

/-- **C47** When all handles are `NULL` again, all memory has been released. -/
theorem C47_no_leak {al : Alloc} (ha : Good al) {p : Nat} {cs : List Cmd}
    (hr : Spec.Ruled (fun _ => false) cs) {s : State} (hs : run al p cs State.init = .ok s)
    (hn : ∀ v, s.vars v = none) (x : Addr) : s.mem x = none := by
  obtain ⟨⟨F, hI⟩, _⟩ := run_inv ha hr hs
  by_contra hx
  obtain ⟨v, hv⟩ := hI.cover x hx
  rw [hI.null v (hn v)] at hv
  simp at hv

/-- **C47** Releasing one matrix always succeeds and leaves every other matrix intact: the memory of
any other handle's matrix is untouched, so all queries about it give the same answers. -/
theorem C47_release_is_local {al : Alloc} (ha : Good al) {p : Nat} {cs : List Cmd}
    (hr : Spec.Ruled (fun _ => false) cs) {s : State} (hs : run al p cs State.init = .ok s)
    (v : Nat) : ∃ s', deallocate v s = .ok s' ∧ ∀ w, w ≠ v → s'.vars w = s.vars w ∧
      ∀ q, query s'.mem (s'.vars w) q = query s.mem (s.vars w) q := by
  obtain ⟨⟨F, hI⟩, _⟩ := run_inv ha hr hs
  cases e : s.vars v with
  | none =>
    exact ⟨s, C47_deallocate_null e, fun w _ => ⟨rfl, fun _ => rfl⟩⟩
  | some a =>
    refine ⟨_, deallocate_eq hI e, fun w hw => ?_⟩
    have hvw : upd s.vars v none w = s.vars w := upd_ne _ _ hw
    refine ⟨hvw, fun q => ?_⟩
    show query (minus s.mem (F v)) (upd s.vars v none w) q = _
    rw [hvw]
    cases ew : s.vars w with
    | none =>
      cases q <;> rfl
    | some b =>
      have hO := hI.own w b ew
      have hout : ∀ x, x ∈ F w → minus s.mem (F v) x = s.mem x := fun x hx =>
        minus_out fun hm => hI.disj w v hw hx hm
      have hb := hout b hO.self
      have ht : getType (minus s.mem (F v)) (some b) = getType s.mem (some b) := by
        unfold getType; simp only [hb]
      have hh : header (minus s.mem (F v)) (some b) = header s.mem (some b) := by
        unfold header; simp only [hb]
      have hl : localMatrix (minus s.mem (F v)) (some b) = localMatrix s.mem (some b) := by
        unfold localMatrix; simp only [ht, hb]
      have hN : getN (minus s.mem (F v)) (some b) = getN s.mem (some b) := by
        unfold getN; simp only [ht, hh]
      have hdeep : ∀ l, localMatrix s.mem (some b) = .ok l →
          getType (minus s.mem (F v)) l = getType s.mem l ∧
          header (minus s.mem (F v)) l = header s.mem l := by
        intro l hlm
        revert hO hout
        generalize F w = K
        intro hO hout
        cases hO with
        | loc h1 =>
          exfalso
          cases h1 with
          | dense e _ _ _ => simp [localMatrix, getType, e] at hlm
          | ellpack e _ _ _ => simp [localMatrix, getType, e] at hlm
          | csr e _ _ => simp [localMatrix, getType, e] at hlm
          | ellblock e _ _ _ => simp [localMatrix, getType, e] at hlm
        | @dist hd l0 K0 h1 h2 =>
          have : l = some l0 := by
            simp [localMatrix, getType, h1] at hlm
            exact hlm.symm
          subst this
          have := hout l0 (List.mem_append_left _ h2.self)
          constructor
          · unfold getType; simp only [this]
          · unfold header; simp only [this]
      cases q with
      | deepType =>
        unfold query
        rw [ht, hl]
        cases elm : localMatrix s.mem (some b) with
        | ok l => simp only [Res.bind_ok, (hdeep l elm).1]
        | error => rfl
        | ub => rfl
      | precision =>
        unfold query
        rw [ht, hl, hh]
        cases elm : localMatrix s.mem (some b) with
        | ok l => simp only [Res.bind_ok, (hdeep l elm).1, (hdeep l elm).2]
        | error => rfl
        | ub => rfl
      | _ => unfold query; simp only [ht, hh, hl, hN]

/-- **C47 needs the second rule**: after `w = v`, releasing through both handles releases the memory
twice, whatever the matrix. -/
theorem C47_alias_double_free {al : Alloc} (ha : Good al) {p : Nat} {cs : List Cmd}
    (hr : Spec.Ruled (fun _ => false) cs) {s : State} (hs : run al p cs State.init = .ok s)
    {v w : Nat} (hvw : v ≠ w) (hv : s.vars v ≠ none) :
    run al p [.assign w v, .deallocate v, .deallocate w] s = .ub := by
  obtain ⟨⟨F, hI⟩, _⟩ := run_inv ha hr hs
  obtain ⟨a, e⟩ := Option.ne_none_iff_exists'.1 hv
  have h1 : deallocate v { s with vars := upd s.vars w (s.vars v) } =
      .ok ⟨minus s.mem (F v), upd (upd s.vars w (s.vars v)) v none, s.comms⟩ := by
    unfold deallocate
    simp only [upd_ne _ _ hvw, e]
    rw [deallocMat_eq (hI.own v a e) (hI.nodup v)]
    rfl
  have h2 : deallocate w ⟨minus s.mem (F v), upd (upd s.vars w (s.vars v)) v none, s.comms⟩ =
      .ub := by
    unfold deallocate
    simp only [upd_ne _ _ (Ne.symm hvw), upd_same, e]
    have : minus s.mem (F v) a = none := minus_in (hI.own v a e).self
    unfold deallocMat deallocLocal
    rw [this]
    rfl
  show (deallocate v { s with vars := upd s.vars w (s.vars v) } >>= _) >>= _ = _
  rw [h1]
  show (deallocate w _ >>= _) >>= _ = _
  rw [h2]
  rfl

/-- **C47 needs the second rule**: introspection through the other handle reads released memory. -/
theorem C47_alias_use_after_free {al : Alloc} (ha : Good al) {p : Nat} {cs : List Cmd}
    (hr : Spec.Ruled (fun _ => false) cs) {s : State} (hs : run al p cs State.init = .ok s)
    {v w : Nat} (hvw : v ≠ w) (hv : s.vars v ≠ none) :
    run al p [.assign w v, .deallocate v, .query w .N] s = .ub := by
  obtain ⟨⟨F, hI⟩, _⟩ := run_inv ha hr hs
  obtain ⟨a, e⟩ := Option.ne_none_iff_exists'.1 hv
  have h1 : deallocate v { s with vars := upd s.vars w (s.vars v) } =
      .ok ⟨minus s.mem (F v), upd (upd s.vars w (s.vars v)) v none, s.comms⟩ := by
    unfold deallocate
    simp only [upd_ne _ _ hvw, e]
    rw [deallocMat_eq (hI.own v a e) (hI.nodup v)]
    rfl
  have h2 : query (minus s.mem (F v)) (some a) .N = .ub := by
    have : minus s.mem (F v) a = none := minus_in (hI.own v a e).self
    simp only [query, getN, getType, this]
    rfl
  show (deallocate v { s with vars := upd s.vars w (s.vars v) } >>= _) >>= _ = _
  rw [h1]
  show (query (minus s.mem (F v)) (upd (upd s.vars w (s.vars v)) v none w) .N >>= _) >>= _ = _
  rw [upd_ne _ _ (Ne.symm hvw), upd_same, e, h2]
  rfl

/-- **C47 needs the first rule**: a constructor does not release the matrix its target handle held.
Its memory stays allocated and no handle leads to it any more. -/
theorem C47_overwrite_leaks {al : Alloc} (ha : Good al) {p : Nat} {cs : List Cmd}
    (hr : Spec.Ruled (fun _ => false) cs) {s : State} (hs : run al p cs State.init = .ok s)
    {v : Nat} {a : Addr} (hv : s.vars v = some a) {t : Typ} {hd : Hdr} {s' : State}
    (h : zero al v t hd s = .ok s') : s'.mem a ≠ none ∧ ∀ w, s'.vars w ≠ some a := by
  obtain ⟨⟨F, hI⟩, _⟩ := run_inv ha hr hs
  have hw := wp_zeroLocal (E := True) ha (.inl trivial) (t := t) (hd := hd) (.inl trivial)
    hI.bounded
  unfold zero at h
  cases e : zeroLocal al t hd s.mem with
  | error => rw [e] at h; cases h
  | ub => rw [e] at h; cases h
  | ok r =>
    obtain ⟨b, m⟩ := r
    rw [e] at h hw
    obtain ⟨L, g, o, _⟩ := hw
    cases h
    have hlive : s.mem a ≠ none := (hI.own v a hv).live a (hI.own v a hv).self
    have haL : a ∉ L := fun hm => hlive (g.fresh a hm)
    refine ⟨?_, fun w hw => ?_⟩
    · show m a ≠ none
      rw [show m a = s.mem a from g.out a haL]
      exact hlive
    · have hw : upd s.vars v (some b) w = some a := hw
      by_cases ew : w = v
      · subst ew
        rw [upd_same] at hw
        cases hw
        exact haL o.self
      · rw [upd_ne _ _ ew] at hw
        exact hI.disj w v ew (hI.own w a hw).self (hI.own v a hv).self

/-- **C47 fails for the communicators of a distributed matrix**: making and releasing a distributed
matrix leaves no memory behind, but the two communicators made for it are never freed. -/
theorem C47_communicators_leak {al : Alloc} (ha : Good al) {p v : Nat} {t : Typ} {hd : Hdr}
    {s : State} (hs : run al p [.zeroDist v t hd, .deallocate v] State.init = .ok s) :
    (∀ x, s.mem x = none) ∧ s.comms = 2 := by
  have hr : Spec.Ruled (fun _ => false) [Cmd.zeroDist v t hd, .deallocate v] :=
    ⟨rfl, trivial, trivial⟩
  obtain ⟨⟨F, hI⟩, _⟩ := run_inv ha hr hs
  have hw := wp_zeroDist (E := True) (p := p) (v := v) (t := t) (hd := hd) ha (.inl trivial)
    (.inl trivial) inv_init rfl
  have hs : ((zeroDist al p v t hd State.init >>= fun s => pure (s, (none : Option Obs))) >>=
    fun r => run al p [.deallocate v] r.1) = .ok s := hs
  cases e : zeroDist al p v t hd State.init with
  | error => rw [e] at hs; cases hs
  | ub => rw [e] at hs; cases hs
  | ok s1 =>
    rw [e] at hs hw
    obtain ⟨F1, a, hI1, h1, h2⟩ := hw
    obtain ⟨s2, F2, e2, hI2, h3, h4⟩ := inv_deallocate (v := v) hI1
    simp only [Res.bind_ok, Res.pure_eq, run, step, e2, Res.ok.injEq] at hs
    subst hs
    have hnull : ∀ w, s2.vars w = none := by
      intro w
      rw [h3, h1]
      by_cases ew : w = v
      · subst ew; rw [upd_same]
      · rw [upd_ne _ _ ew, upd_ne _ _ ew]; rfl
    refine ⟨fun x => ?_, by rw [h4, h2]; rfl⟩
    by_contra hx
    obtain ⟨w, hw⟩ := hI2.cover x hx
    rw [hI2.null w (hnull w)] at hw
    simp at hw

/-- A sequence over five formats: growth of a CSR row, blocks added and dropped, copies, two
releases of the same handle. -/
def exCalls : List Cmd :=
  [.zero 0 .csr ⟨.doubleReal, 3, 2, 1, .sequential⟩, .growRow 0 1, .copyNew 1 0, .deallocate 0,
   .zero 2 .ellblock ⟨.singleReal, 8, 8, 2, .sequential⟩, .addBlock 2 0, .addBlock 2 1,
   .dropBlock 2 0, .copyNew 0 2, .clear 0, .query 0 .precision, .zeroDist 3 .ellpack
     ⟨.doubleComplex, 4, 4, 1, .distributed⟩, .query 3 .deepType, .deallocate 2, .deallocate 2,
   .query 2 .N, .zero 2 .dense ⟨.doubleReal, 2, 2, 1, .sequential⟩, .deallocate 0, .deallocate 1,
   .deallocate 2, .deallocate 3]

theorem exCalls_ruled : Spec.Ruled (fun _ => false) exCalls := by
  simp [exCalls, Spec.Ruled, Spec.Rule, Spec.after, upd]

theorem exCalls_accepted : Spec.AllAccepted 2 (fun _ => false) exCalls := by
  simp [exCalls, Spec.AllAccepted, Spec.Accepted, Spec.after, upd, ValidLocal, ValidDist,
    Spec.Answered, Hdr.tile]

example : run exAlloc 2 exCalls State.init ≠ .ub := C47_any_order exAlloc_good 2 exCalls_ruled

example : ∃ s, run exTotal 2 exCalls State.init = .ok s ∧ ∀ x, s.mem x = none := by
  obtain ⟨s, e⟩ := C47_runs exTotal_good exTotal_total exCalls_ruled exCalls_accepted
  refine ⟨s, e, C47_no_leak exTotal_good exCalls_ruled e fun v => ?_⟩
  by_contra hv
  have := (C47_handles exTotal_good exCalls_ruled e v).1 hv
  revert this
  simp only [exCalls, Spec.afterAll, Spec.after, upd]
  repeat' split
  all_goals simp

/-- A distributed matrix whose two communicators stay. -/
example : ∃ s, run exTotal 2 [.zeroDist 3 .csr ⟨.doubleReal, 4, 4, 1, .distributed⟩,
    .deallocate 3] State.init = .ok s ∧ s.comms = 2 := by
  obtain ⟨s, e⟩ := C47_runs (p := 2) (cs := [.zeroDist 3 .csr
    ⟨.doubleReal, 4, 4, 1, .distributed⟩, .deallocate 3]) exTotal_good exTotal_total
    ⟨rfl, trivial, trivial⟩
    ⟨by simp [Spec.Accepted, ValidDist, ValidLocal, Hdr.tile], trivial, trivial⟩
  exact ⟨s, e, (C47_communicators_leak exTotal_good e).2⟩

/-- Both ways of using a copied handle, and a matrix overwritten by a constructor. -/
example : ∃ s, run exTotal 1 [.zero 0 .dense ⟨.doubleReal, 2, 2, 1, .sequential⟩] State.init =
      .ok s ∧ run exTotal 1 [.assign 1 0, .deallocate 0, .deallocate 1] s = .ub ∧
    run exTotal 1 [.assign 1 0, .deallocate 0, .query 1 .N] s = .ub := by
  have hr : Spec.Ruled (fun _ => false)
    [Cmd.zero 0 .dense ⟨.doubleReal, 2, 2, 1, .sequential⟩] := ⟨rfl, trivial⟩
  obtain ⟨s, e⟩ := C47_runs (p := 1) exTotal_good exTotal_total hr
    ⟨by simp [Spec.Accepted, ValidLocal], trivial⟩
  have h0 : s.vars 0 ≠ none := (C47_handles exTotal_good hr e 0).2 rfl
  exact ⟨s, e, C47_alias_double_free exTotal_good hr e (by decide) h0,
    C47_alias_use_after_free exTotal_good hr e (by decide) h0⟩

end Bml.Props
