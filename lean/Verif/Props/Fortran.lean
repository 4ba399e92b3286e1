import Verif.Fortran.HandleProof

/-!
# C70 and C71: matrices in Fortran

C70: a Fortran program may call the procedures in any order, and may reuse a variable that still
holds a matrix.  C71: a program gets back the names it gave to a constructor.
-/

namespace Bml.Props

open Bml.Fortran
open Bml.Handle (Addr State Alloc Typ Prec Mode Hdr Mem Good Total)

/-! ## C70 -/

/-- **C70 (partial)** Every program without assignments of matrix variables and without `bml_clear`,
of any length and in any order, with any allocator and any arguments, valid or not: nothing that is
not allocated is read or released. -/
theorem C70_any_order_partial {al : Alloc} (ha : Good al) (mpi : Bool) (p : Nat) {cs : List Cmd}
    (hs : ∀ c ∈ cs, Safe c) : run al mpi p cs State.init ≠ .ub := by
  have h := wp_run (E := True) (mpi := mpi) (p := p) ha (.inl trivial) cs Handle.inv_init
    (fun _ => rfl) hs (.inl trivial)
  intro e
  rw [e] at h
  exact h

/-- **C70 (partial)** Such a program, with arguments that are accepted, runs to its end if memory
does not run out. -/
theorem C70_runs_partial {al : Alloc} (ha : Good al) (ht : Total al) {mpi : Bool} {p : Nat}
    {cs : List Cmd} (hs : ∀ c ∈ cs, Safe c) (hc : AllAccepted mpi p (fun _ => false) cs) :
    ∃ s, run al mpi p cs State.init = .ok s := by
  obtain ⟨s, e, -⟩ := Res.wp_exists (wp_run (E := False) (mpi := mpi) (p := p) ha (.inr ht) cs
    Handle.inv_init (fun _ => rfl) hs (.inr hc))
  exact ⟨s, e⟩

/-- **C70 (partial)** Afterwards the variables that hold a matrix are those given one and not
released since. -/
theorem C70_variables_partial {al : Alloc} (ha : Good al) {mpi : Bool} {p : Nat} {cs : List Cmd}
    (hs : ∀ c ∈ cs, Safe c) {s : State} (h : run al mpi p cs State.init = .ok s) (v : Nat) :
    s.vars v ≠ none ↔ holdsAfterAll (fun _ => false) cs v = true := by
  rw [← (run_inv ha hs h).2 v, Option.isSome_iff_ne_none]

/-- **C70 (partial)** When all variables have been released no memory is left, even if variables were
reused while they held a matrix: unlike in C (C47), every procedure that makes a matrix releases the
one its result variable held. -/
theorem C70_no_leak_partial {al : Alloc} (ha : Good al) {mpi : Bool} {p : Nat} {cs : List Cmd}
    (hs : ∀ c ∈ cs, Safe c) {s : State} (h : run al mpi p cs State.init = .ok s)
    (hn : ∀ v, holdsAfterAll (fun _ => false) cs v = false) (x : Addr) : s.mem x = none := by
  obtain ⟨⟨F, hI⟩, hv⟩ := run_inv ha hs h
  by_contra hx
  obtain ⟨v, hv'⟩ := hI.cover x hx
  have : s.vars v = none := by
    have := hv v
    rw [hn v] at this
    cases e : s.vars v with
    | none => rfl
    | some _ => rw [e] at this; cases this
  rw [hI.null v this] at hv'
  simp at hv'

/-- **C70 fails** for assignment: after `b = a`, releasing both variables releases the memory twice,
and so does any procedure whose result is stored in `a`, followed by the release of `b`. -/
theorem C70_assignment_double_free {al : Alloc} (ha : Good al) {mpi : Bool} {p : Nat}
    {cs : List Cmd} (hs : ∀ c ∈ cs, Safe c) {s : State}
    (h : run al mpi p cs State.init = .ok s) {a b : Nat} (hab : a ≠ b) (hv : s.vars a ≠ none) :
    run al mpi p [.assign b a, .deallocate a, .deallocate b] s = .ub := by
  obtain ⟨⟨F, hI⟩, -⟩ := run_inv ha hs h
  obtain ⟨x, e⟩ := Option.ne_none_iff_exists'.1 hv
  have h1 : deallocate a { s with vars := upd s.vars b (s.vars a) } =
      .ok ⟨Handle.minus s.mem (F a), upd (upd s.vars b (s.vars a)) a none, s.comms⟩ := by
    unfold deallocate Handle.deallocate
    simp only [upd_ne _ _ hab, e]
    rw [Handle.deallocMat_eq (hI.own a x e) (hI.nodup a)]
    show Res.ok _ = Res.ok _
    congr 1
    show (⟨_, _, _⟩ : State) = _
    congr 1
    funext w
    by_cases ew : w = a
    · subst ew; rw [upd_same, upd_same]
    · rw [upd_ne _ _ ew]
  have h2 : deallocate b ⟨Handle.minus s.mem (F a), upd (upd s.vars b (s.vars a)) a none,
      s.comms⟩ = .ub := by
    unfold deallocate Handle.deallocate
    simp only [upd_ne _ _ (Ne.symm hab), upd_same, e]
    have : Handle.minus s.mem (F a) x = none := Handle.minus_in (hI.own a x e).self
    unfold Handle.deallocMat Handle.deallocLocal
    rw [this]
    rfl
  show (deallocate a { s with vars := upd s.vars b (s.vars a) } >>= _) = _
  rw [h1, Res.bind_ok]
  show (deallocate b _ >>= _) = _
  rw [h2]
  rfl

/-- **C70 fails** for `bml_copy_new(a, a)`: the matrix is released before it is copied, so the program
ends with an error. -/
theorem C70_copy_onto_itself {al : Alloc} (ha : Good al) {mpi : Bool} {p : Nat} {cs : List Cmd}
    (hs : ∀ c ∈ cs, Safe c) {s : State} (h : run al mpi p cs State.init = .ok s) (a : Nat) :
    copyNew al a a s = .error := by
  obtain ⟨⟨F, hI⟩, -⟩ := run_inv ha hs h
  obtain ⟨s1, F1, e1, -, hv1, -⟩ := inv_release (v := a) hI
  unfold copyNew Handle.copyNew
  rw [e1, Res.bind_ok, hv1, upd_same]

/-- **C70 fails** for `bml_clear`: whatever the variable holds, the call never comes back. -/
theorem C70_clear_never_returns (v : Nat) (s : State) : ∀ s', clear v s ≠ .ok s' := by
  intro s' h
  unfold clear at h
  simp only at h
  split at h <;> cases h

/-- **C70 fails** for `bml_clear`: with matrices at multiples of eight it ends the program with the
message for an unknown matrix type, for every matrix. -/
theorem C70_clear_stops {v : Nat} {s : State} (h : ∀ a, s.vars v = some a → 8 ∣ a) :
    clear v s = .error := by
  have : 8 ∣ (s.vars v).getD 0 := by
    cases e : s.vars v with
    | none => exact Nat.dvd_zero 8
    | some a => exact h a e
  have key : ∀ x : Nat, 8 ∣ x → ¬ (x % 2 ^ 32 = 1 ∨ x % 2 ^ 32 = 2 ∨ x % 2 ^ 32 = 3 ∨
      x % 2 ^ 32 = 4 ∨ x % 2 ^ 32 = 5) := fun x hx => by omega
  exact if_neg (key _ this)

/-! ## C71 -/

/-- What the constructor left, in terms of its arguments. -/
theorem zeroMatrix_is {al : Alloc} (ha : Good al) {mpi : Bool} {p : Nat} {cs : List Cmd}
    (hs : ∀ c ∈ cs, Safe c) {s : State} (h : run al mpi p cs State.init = .ok s)
    {junk nb v : Nat} {mt et : Str} {kind n m : Nat} {dm : Option Str} {s' : State}
    (hz : zeroMatrix al mpi p junk nb v mt et kind n m dm s = .ok s') :
    ∃ k d, matrixId mt = .ok k ∧ dmodeId (char20 (dm.getD nSequential)) = .ok d ∧
      Is s'.mem (s'.vars v) (typOf k) ⟨precOf (elementId junk et kind), n, m, nb, modeOf d⟩
        (decide (mpi = true ∧ modeOf d = .distributed)) := by
  obtain ⟨⟨F, hI⟩, -⟩ := run_inv ha hs h
  obtain ⟨s1, F1, e1, hI1, -, -⟩ := inv_release (v := v) hI
  unfold zeroMatrix at hz
  rw [e1, Res.bind_ok] at hz
  cases ek : matrixId mt with
  | error => rw [ek] at hz; cases hz
  | ub => rw [ek] at hz; cases hz
  | ok k =>
    rw [ek, Res.bind_ok] at hz
    cases ed : dmodeId (char20 (dm.getD nSequential)) with
    | error => rw [ed] at hz; cases hz
    | ub => rw [ed] at hz; cases hz
    | ok d =>
      rw [ed, Res.bind_ok] at hz
      refine ⟨k, d, rfl, rfl, ?_⟩
      simp only at hz
      by_cases hc : mpi = true ∧ modeOf d = .distributed
      · rw [if_pos hc] at hz
        rw [decide_eq_true hc]
        exact zeroDist_is ha hI1.bounded hz
      · rw [if_neg hc] at hz
        rw [decide_eq_false hc]
        exact zero_is hz

/-- The variable `v` was just given a matrix by `bml_zero_matrix` with these arguments, at any point of
any program without assignments and `bml_clear`. -/
structure Constructed (mpi : Bool) (mt et : Str) (kind n m : Nat) (dm : Option Str) (h : Mem)
    (A : Option Addr) : Prop where
  made : ∃ (al : Alloc) (p : Nat) (cs : List Cmd) (s s' : State) (junk nb v : Nat), Good al ∧
    (∀ c ∈ cs, Safe c) ∧ run al mpi p cs State.init = .ok s ∧
    zeroMatrix al mpi p junk nb v mt et kind n m dm s = .ok s' ∧ h = s'.mem ∧ A = s'.vars v

/-- The mode asked for. -/
abbrev askedMode (dm : Option Str) : Str := trim (dm.getD nSequential)

section

variable {mpi : Bool} {mt et : Str} {kind n m : Nat} {dm : Option Str} {h : Mem} {A : Option Addr}

theorem Constructed.is (hc : Constructed mpi mt et kind n m dm h A) :
    ∃ junk nb k d, matrixId mt = .ok k ∧ dmodeId (char20 (dm.getD nSequential)) = .ok d ∧
      Is h A (typOf k) ⟨precOf (elementId junk et kind), n, m, nb, modeOf d⟩
        (decide (mpi = true ∧ modeOf d = .distributed)) := by
  obtain ⟨al, p, cs, s, s', junk, nb, v, ha, hs, hr, hz, rfl, rfl⟩ := hc.made
  obtain ⟨k, d, h1, h2, h3⟩ := zeroMatrix_is ha hs hr hz
  exact ⟨junk, nb, k, d, h1, h2, h3⟩

theorem matrixId_ok {k : Nat} (e : matrixId mt = .ok k) :
    (k = 1 ∧ trim mt = nDense) ∨ (k = 2 ∧ trim mt = nEllpack) ∨ (k = 3 ∧ trim mt = nEllblock) ∨
      (k = 4 ∧ trim mt = nCsr) := by
  unfold matrixId at e
  split at e
  · cases e; next h => exact .inl ⟨rfl, h⟩
  · split at e
    · cases e; next h => exact .inr (.inl ⟨rfl, h⟩)
    · split at e
      · cases e; next h => exact .inr (.inr (.inl ⟨rfl, h⟩))
      · split at e
        · cases e; next h => exact .inr (.inr (.inr ⟨rfl, h⟩))
        · cases e

theorem dmode_ok {d : Nat} (hm : askedMode dm ∈ [nSequential, nDistributed, nGraph])
    (e : dmodeId (char20 (dm.getD nSequential)) = .ok d) :
    (modeOf d = .distributed ↔ askedMode dm = nDistributed) ∧
      (askedMode dm = nSequential → modeOf d = .sequential) ∧
      (askedMode dm = nGraph → modeOf d = .graphDistributed) := by
  obtain ⟨k, e', h⟩ := dmodeId_eq hm
  rw [e'] at e
  cases e
  exact h

/-- The matrix is not a distributed one. -/
def Local (mpi : Bool) (dm : Option Str) : Prop :=
  askedMode dm ∈ [nSequential, nDistributed, nGraph] ∧
    (mpi = true → askedMode dm ≠ nDistributed)

theorem Constructed.local (hc : Constructed mpi mt et kind n m dm h A) (hl : Local mpi dm) :
    ∃ junk nb k d, matrixId mt = .ok k ∧ dmodeId (char20 (dm.getD nSequential)) = .ok d ∧
      Handle.getType h A = .ok (typOf k) ∧
      Handle.header h A = .ok ⟨precOf (elementId junk et kind), n, m, nb, modeOf d⟩ ∧
      precOf (elementId junk et kind) ≠ .uninitialized := by
  obtain ⟨junk, nb, k, d, h1, h2, h3⟩ := hc.is
  refine ⟨junk, nb, k, d, h1, h2, ?_⟩
  rw [decide_eq_false fun hx => hl.2 hx.1 ((dmode_ok hl.1 h2).1.1 hx.2)] at h3
  cases h3 with
  | loc _ _ e1 e2 e3 => exact ⟨e1, e2, e3⟩

theorem Constructed.distributed (hc : Constructed true mt et kind n m dm h A)
    (hd : askedMode dm = nDistributed) :
    ∃ junk nb k d p l, matrixId mt = .ok k ∧
      Handle.getType h A = .ok .distributed2d ∧ Handle.localMatrix h A = .ok l ∧
      Handle.getType h l = .ok (typOf k) ∧
      Handle.header h l = .ok (Hdr.tile ⟨precOf (elementId junk et kind), n, m, nb, d⟩ p) ∧
      Handle.header h A = .ok ⟨precOf (elementId junk et kind), n, m, nb, d⟩ := by
  obtain ⟨junk, nb, k, d, h1, h2, h3⟩ := hc.is
  have hm : askedMode dm ∈ [nSequential, nDistributed, nGraph] := by simp [hd]
  rw [decide_eq_true ⟨rfl, (dmode_ok hm h2).1.2 hd⟩] at h3
  cases h3 with
  | @dist l p _ _ e1 e2 e3 e4 e5 e6 =>
    exact ⟨junk, nb, k, modeOf d, p, l, h1, e1, e3, e4, e5, e2⟩

/-- **C71 (partial)** `bml_get_type` and `bml_get_deep_type` return the matrix type given to the
constructor, for a dense, ELLPACK or block-ELLPACK matrix that is not distributed. -/
theorem C71_type_partial (hc : Constructed mpi mt et kind n m dm h A) (hl : Local mpi dm)
    (ht : trim mt ≠ nCsr) :
    (∃ s, query h A .type = .ok (.name s) ∧ trim s = trim mt) ∧
      ∃ s, query h A .deepType = .ok (.name s) ∧ trim s = trim mt := by
  obtain ⟨junk, nb, k, d, h1, -, e1, -⟩ := hc.local hl
  rcases matrixId_ok h1 with ⟨rfl, hn⟩ | ⟨rfl, hn⟩ | ⟨rfl, hn⟩ | ⟨rfl, hn⟩
  · rw [hn]
    simp only [query, Handle.query, e1, typOf, Res.bind_ok, Res.pure_eq, typNum, typeName]
    exact ⟨⟨_, rfl, by decide⟩, ⟨_, rfl, by decide⟩⟩
  · rw [hn]
    simp only [query, Handle.query, e1, typOf, Res.bind_ok, Res.pure_eq, typNum, typeName]
    exact ⟨⟨_, rfl, by decide⟩, ⟨_, rfl, by decide⟩⟩
  · rw [hn]
    simp only [query, Handle.query, e1, typOf, Res.bind_ok, Res.pure_eq, typNum, typeName]
    exact ⟨⟨_, rfl, by decide⟩, ⟨_, rfl, by decide⟩⟩
  · exact absurd hn ht

/-- **C71 fails** for every CSR matrix: asking for its type ends the program. -/
theorem C71_csr_type_stops (hc : Constructed mpi mt et kind n m dm h A) (hl : Local mpi dm)
    (ht : trim mt = nCsr) : query h A .type = .error ∧ query h A .deepType = .error := by
  obtain ⟨junk, nb, k, d, h1, -, e1, -⟩ := hc.local hl
  have hne := nDense_ne
  rcases matrixId_ok h1 with ⟨rfl, hn⟩ | ⟨rfl, hn⟩ | ⟨rfl, hn⟩ | ⟨rfl, hn⟩
  · exact absurd (ht.symm.trans hn) hne.2.2.2.1
  · exact absurd (ht.symm.trans hn) hne.2.2.2.2.1
  · exact absurd (ht.symm.trans hn) hne.2.2.2.2.2.1
  · simp only [query, Handle.query, e1, typOf, Res.bind_ok, Res.pure_eq, typNum, typeName]
    exact ⟨rfl, rfl⟩

/-- **C71 fails** for every distributed matrix: `bml_get_type` says that it is a CSR matrix. -/
theorem C71_distributed_is_csr (hc : Constructed true mt et kind n m dm h A)
    (hd : askedMode dm = nDistributed) :
    ∃ s, query h A .type = .ok (.name s) ∧ trim s = nCsr := by
  obtain ⟨junk, nb, k, d, p, l, -, e1, -⟩ := hc.distributed hd
  simp only [query, Handle.query, e1, Res.bind_ok, Res.pure_eq, typNum, typeName]
  exact ⟨_, rfl, by decide⟩

/-- **C71 (partial)** `bml_get_deep_type` of a distributed matrix is the type given to the constructor,
unless that is CSR. -/
theorem C71_deep_type_distributed_partial (hc : Constructed true mt et kind n m dm h A)
    (hd : askedMode dm = nDistributed) (ht : trim mt ≠ nCsr) :
    ∃ s, query h A .deepType = .ok (.name s) ∧ trim s = trim mt := by
  obtain ⟨junk, nb, k, d, p, l, h1, e1, e2, e3, -⟩ := hc.distributed hd
  rcases matrixId_ok h1 with ⟨rfl, hn⟩ | ⟨rfl, hn⟩ | ⟨rfl, hn⟩ | ⟨rfl, hn⟩
  · rw [hn]
    simp only [query, Handle.query, e1, e2, e3, typOf, Res.bind_ok, Res.pure_eq, typNum, typeName]
    exact ⟨_, rfl, by decide⟩
  · rw [hn]
    simp only [query, Handle.query, e1, e2, e3, typOf, Res.bind_ok, Res.pure_eq, typNum, typeName]
    exact ⟨_, rfl, by decide⟩
  · rw [hn]
    simp only [query, Handle.query, e1, e2, e3, typOf, Res.bind_ok, Res.pure_eq, typNum, typeName]
    exact ⟨_, rfl, by decide⟩
  · exact absurd hn ht

/-- The precision asked for. -/
theorem Constructed.precision (hc : Constructed mpi mt et kind n m dm h A)
    (hm : askedMode dm ∈ [nSequential, nDistributed, nGraph]) : ∃ junk,
      Handle.query h A .precision = .ok (.prec (precOf (elementId junk et kind))) := by
  by_cases hd : mpi = true ∧ askedMode dm = nDistributed
  · obtain ⟨rfl, hd⟩ := hd
    obtain ⟨junk, nb, k, d, p, l, h1, e1, e2, e3, e4, -⟩ := hc.distributed hd
    refine ⟨junk, ?_⟩
    rcases matrixId_ok h1 with ⟨rfl, -⟩ | ⟨rfl, -⟩ | ⟨rfl, -⟩ | ⟨rfl, -⟩ <;>
      simp [Handle.query, e1, e2, e3, e4, typOf, Hdr.tile]
  · have hl : Local mpi dm := ⟨hm, fun h1 h2 => hd ⟨h1, h2⟩⟩
    obtain ⟨junk, nb, k, d, h1, -, e1, e2, -⟩ := hc.local hl
    refine ⟨junk, ?_⟩
    rcases matrixId_ok h1 with ⟨rfl, -⟩ | ⟨rfl, -⟩ | ⟨rfl, -⟩ | ⟨rfl, -⟩ <;>
      simp [Handle.query, e1, e2, typOf]

/-- **C71 (partial)** `bml_get_element_type` returns the element type given to the constructor, for
the two names and the two kinds, also of a distributed matrix. -/
theorem C71_element_type_partial (hc : Constructed mpi mt et kind n m dm h A)
    (hm : askedMode dm ∈ [nSequential, nDistributed, nGraph]) (he : trim et ∈ [nReal, nComplex])
    (hk : kind ∈ [4, 8]) :
    ∃ s, query h A .elementType = .ok (.name s) ∧ trim s = trim et := by
  obtain ⟨junk, e⟩ := hc.precision hm
  have hp := (elementId_eq junk he hk).2
  simp only [List.mem_cons, List.not_mem_nil, or_false] at he hk
  simp only [query, e, Res.bind_ok]
  rcases he with he | he <;> rcases hk with hk | hk
  · rw [hp.1 he hk, he]; exact ⟨_, rfl, by decide⟩
  · rw [hp.2.1 he hk, he]; exact ⟨_, rfl, by decide⟩
  · rw [hp.2.2.1 he hk, he]; exact ⟨_, rfl, by decide⟩
  · rw [hp.2.2.2 he hk, he]; exact ⟨_, rfl, by decide⟩

/-- **C71 (partial)** `bml_get_element_precision` of a real matrix is the kind given to the
constructor. -/
theorem C71_element_precision_partial (hc : Constructed mpi mt et kind n m dm h A)
    (hm : askedMode dm ∈ [nSequential, nDistributed, nGraph]) (he : trim et = nReal)
    (hk : kind ∈ [4, 8]) : query h A .elementPrecision = .ok (.int kind) := by
  obtain ⟨junk, e⟩ := hc.precision hm
  have hp := (elementId_eq junk (et := et) (by simp [he]) hk).2
  simp only [List.mem_cons, List.not_mem_nil, or_false] at hk
  simp only [query, e, Res.bind_ok]
  rcases hk with hk | hk
  · rw [hp.1 he hk, hk]; rfl
  · rw [hp.2.1 he hk, hk]; rfl

/-- **C71 fails** for every complex matrix: asking for the precision of its elements ends the
program. -/
theorem C71_complex_precision_stops (hc : Constructed mpi mt et kind n m dm h A)
    (hm : askedMode dm ∈ [nSequential, nDistributed, nGraph]) (he : trim et = nComplex)
    (hk : kind ∈ [4, 8]) : query h A .elementPrecision = .error := by
  obtain ⟨junk, e⟩ := hc.precision hm
  have hp := (elementId_eq junk (et := et) (by simp [he]) hk).2
  simp only [List.mem_cons, List.not_mem_nil, or_false] at hk
  simp only [query, e, Res.bind_ok]
  rcases hk with hk | hk
  · rw [hp.2.2.1 he hk]; rfl
  · rw [hp.2.2.2 he hk]; rfl

/-- **C71** `bml_get_precision` tells the four kinds of elements apart. -/
theorem C71_precision (hc : Constructed mpi mt et kind n m dm h A)
    (hm : askedMode dm ∈ [nSequential, nDistributed, nGraph]) (he : trim et ∈ [nReal, nComplex])
    (hk : kind ∈ [4, 8]) : query h A .precision =
      .ok (.int ((if trim et = nReal then 0 else 2) + if kind = 4 then 1 else 2)) := by
  obtain ⟨junk, e⟩ := hc.precision hm
  have hp := (elementId_eq junk he hk).2
  have hne := nDense_ne.2.2.2.2.2.2.1
  simp only [List.mem_cons, List.not_mem_nil, or_false] at he hk
  simp only [query, e, Res.bind_ok]
  rcases he with he | he <;> rcases hk with hk | hk
  · rw [hp.1 he hk, he, hk]; rfl
  · rw [hp.2.1 he hk, he, hk]; rfl
  · rw [hp.2.2.1 he hk, he, hk, if_neg hne]; rfl
  · rw [hp.2.2.2 he hk, he, hk, if_neg hne]; rfl

/-- **C71 (partial)** `bml_get_distribution_mode` returns the mode given to the constructor, or
"sequential" if none was given: for dense, ELLPACK and CSR matrices, except in graph-distributed
mode and for a distributed matrix. -/
theorem C71_mode_partial (hc : Constructed mpi mt et kind n m dm h A) (hl : Local mpi dm)
    (ht : trim mt ≠ nEllblock) (hg : askedMode dm ≠ nGraph) :
    ∃ s, query h A .distributionMode = .ok (.name s) ∧ trim s = askedMode dm := by
  obtain ⟨junk, nb, k, d, h1, h2, e1, e2, -⟩ := hc.local hl
  obtain ⟨q1, q2, q3⟩ := dmode_ok hl.1 h2
  have hq : Handle.query h A .distributionMode = .ok (.mode (modeOf d)) := by
    rcases matrixId_ok h1 with ⟨rfl, hn⟩ | ⟨rfl, hn⟩ | ⟨rfl, hn⟩ | ⟨rfl, hn⟩
    · simp [Handle.query, e1, e2, typOf]
    · simp [Handle.query, e1, e2, typOf]
    · exact absurd hn ht
    · simp [Handle.query, e1, e2, typOf]
  simp only [query, hq, Res.bind_ok]
  have hm := hl.1
  simp only [List.mem_cons, List.not_mem_nil, or_false] at hm
  rcases hm with hm | hm | hm
  · rw [q2 hm, hm]; exact ⟨_, rfl, by decide⟩
  · rw [q1.2 hm, hm]; exact ⟨_, rfl, by decide⟩
  · exact absurd hm hg

/-- **C71 fails** in graph-distributed mode: asking for the mode ends the program, for a matrix of any
type. -/
theorem C71_graph_mode_stops (hc : Constructed mpi mt et kind n m dm h A)
    (hg : askedMode dm = nGraph) : query h A .distributionMode = .error := by
  have hne := nDense_ne.2.2.2.2.2.2.2
  have hl : Local mpi dm := ⟨by simp [hg], fun _ => by rw [hg]; exact hne.2.2⟩
  obtain ⟨junk, nb, k, d, h1, h2, e1, e2, -⟩ := hc.local hl
  obtain ⟨-, -, q3⟩ := dmode_ok hl.1 h2
  rcases matrixId_ok h1 with ⟨rfl, -⟩ | ⟨rfl, -⟩ | ⟨rfl, -⟩ | ⟨rfl, -⟩ <;>
    simp [query, Handle.query, e1, e2, typOf, q3 hg, modeNum, modeName]

/-- **C71 fails** for distributed matrices: asking for the mode ends the program. -/
theorem C71_distributed_mode_stops (hc : Constructed true mt et kind n m dm h A)
    (hd : askedMode dm = nDistributed) : query h A .distributionMode = .error := by
  obtain ⟨junk, nb, k, d, p, l, h1, e1, -⟩ := hc.distributed hd
  simp [query, Handle.query, e1]

/-- **C71** `bml_get_n` returns the number of rows given to the constructor, and `bml_allocated` is
true if there are any. -/
theorem C71_size (hc : Constructed mpi mt et kind n m dm h A)
    (hm : askedMode dm ∈ [nSequential, nDistributed, nGraph]) :
    query h A .n = .ok (.int n) ∧ query h A .allocated = .ok (.logical (decide (0 < n))) := by
  have hn : Handle.getN h A = .ok (n : Int) := by
    unfold Handle.getN
    by_cases hd : mpi = true ∧ askedMode dm = nDistributed
    · obtain ⟨rfl, hd⟩ := hd
      obtain ⟨junk, nb, k, d, p, l, h1, e1, -, -, -, e2⟩ := hc.distributed hd
      simp [e1, e2]
    · have hl : Local mpi dm := ⟨hm, fun h1 h2 => hd ⟨h1, h2⟩⟩
      obtain ⟨junk, nb, k, d, h1, -, e1, e2, -⟩ := hc.local hl
      rcases matrixId_ok h1 with ⟨rfl, -⟩ | ⟨rfl, -⟩ | ⟨rfl, -⟩ | ⟨rfl, -⟩ <;>
        simp [e1, e2, typOf]
  simp [query, Handle.query, hn, passInt]

/-- **C71** `bml_get_m` returns the row capacity given to the constructor; for a dense matrix it
returns the number of rows. -/
theorem C71_width (hc : Constructed mpi mt et kind n m dm h A) (hl : Local mpi dm) :
    query h A .m = .ok (.int (if trim mt = nDense then n else m)) := by
  obtain ⟨junk, nb, k, d, h1, -, e1, e2, -⟩ := hc.local hl
  have hne := nDense_ne
  rcases matrixId_ok h1 with ⟨rfl, hn⟩ | ⟨rfl, hn⟩ | ⟨rfl, hn⟩ | ⟨rfl, hn⟩ <;>
    simp [query, Handle.query, e1, e2, typOf, passInt, hn, hne]

end

/-- **C71** A variable that holds no matrix: not allocated, of type "Unformatted". -/
theorem C71_unallocated (h : Mem) :
    query h none .allocated = .ok (.logical false) ∧
      (∃ s, query h none .type = .ok (.name s) ∧ trim s = "Unformatted".toList) ∧
      query h none .precision = .ok (.int 0) ∧ query h none .elementPrecision = .error ∧
      query h none .elementType = .error :=
  ⟨rfl, ⟨_, rfl, by decide⟩, rfl, rfl, rfl⟩

/-- **C71 fails** for unknown names and kinds of elements: the constructor does not stop, and the
element type of the matrix is whatever the unassigned variable holds.  Here `bml_zero_matrix` of
kind 16 ("real") makes a matrix of double-complex elements. -/
theorem C71_unknown_kind : ∃ s, zeroMatrix exAlloc false 1 4 1 0 nDense nReal 16 2 2 none
    State.init = .ok s ∧ ∃ nm, query s.mem (s.vars 0) .elementType = .ok (.name nm) ∧
      trim nm = nComplex := by
  refine Res.exists_okAnd (r := zeroMatrix exAlloc false 1 4 1 0 nDense nReal 16 2 2 none State.init)
    (p := fun s => match query s.mem (s.vars 0) .elementType with
      | .ok (.name nm) => decide (trim nm = nComplex)
      | _ => false) (by decide +kernel) |>.imp fun s ⟨h1, h2⟩ => ⟨h1, ?_⟩
  revert h2
  cases query s.mem (s.vars 0) .elementType with
  | ok o =>
    cases o with
    | name nm => intro h; exact ⟨nm, rfl, of_decide_eq_true h⟩
    | _ => intro h; cases h
  | _ => intro h; cases h

/-! ## Examples -/

/-- A program that reuses variables that hold matrices. -/
def exFProg : List Cmd :=
  [.zero 0 "csr  ".toList nReal 8 3 2 none 0 1, .growRow 0 1, .copyNew 0 1,
   .zero 0 nEllblock nComplex 4 8 8 (some "sequential".toList) 0 2, .addBlock 0 0,
   .zero 0 nEllpack nReal 4 4 4 (some nDistributed) 0 1, .copyNew 0 2, .query 2 .n,
   .copyNew 1 0, .zero 3 nDense nReal 8 2 2 (some nGraph) 0 1, .deallocate 0, .deallocate 0,
   .deallocate 1, .deallocate 2, .deallocate 3]

theorem exFProg_safe : ∀ c ∈ exFProg, Safe c := by
  intro c hc
  simp only [exFProg, List.mem_cons, List.not_mem_nil, or_false] at hc
  rcases hc with rfl | rfl | rfl | rfl | rfl | rfl | rfl | rfl | rfl | rfl | rfl | rfl | rfl | rfl |
    rfl <;> trivial

theorem exFProg_accepted : AllAccepted true 2 (fun _ => false) exFProg := by
  simp only [exFProg, AllAccepted, Accepted, holdsAfter, and_true]
  refine ⟨⟨by decide, by decide, by decide, by decide, by decide, by decide⟩, by decide, by decide,
    ⟨by decide, by decide, by decide, by decide, by decide, by decide⟩, by decide,
    ⟨by decide, by decide, by decide, by decide, by decide, by decide⟩, by decide, trivial,
    by decide, ⟨by decide, by decide, by decide, by decide, by decide, by decide⟩⟩

example : run exAlloc true 2 exFProg State.init ≠ .ub :=
  C70_any_order_partial exAlloc_good true 2 exFProg_safe

example : ∃ s, run exTotal true 2 exFProg State.init = .ok s ∧ ∀ x, s.mem x = none := by
  obtain ⟨s, e⟩ := C70_runs_partial exTotal_good exTotal_total exFProg_safe exFProg_accepted
  refine ⟨s, e, C70_no_leak_partial exTotal_good exFProg_safe e fun v => ?_⟩
  simp only [exFProg, holdsAfterAll, holdsAfter, upd]
  repeat' split
  all_goals rfl

/-- A program of one constructor. -/
theorem exF_one (mpi : Bool) (mt et : Str) (kind n m : Nat) (dm : Option Str)
    (hv : ValidArgs mpi 2 mt et kind n m dm) :
    ∃ s, run exTotal mpi 2 [.zero 0 mt et kind n m dm 0 1] State.init = .ok s ∧
      s.vars 0 ≠ none ∧ Constructed mpi mt et kind n m dm s.mem (s.vars 0) := by
  have hs : ∀ c ∈ [Cmd.zero 0 mt et kind n m dm 0 1], Safe c := by simp [Safe]
  obtain ⟨s, e⟩ := C70_runs_partial (mpi := mpi) (p := 2) exTotal_good exTotal_total hs
    ⟨hv, trivial⟩
  refine ⟨s, e, (C70_variables_partial exTotal_good hs e 0).2 rfl,
    ⟨exTotal, 2, [], State.init, s, 0, 1, 0, exTotal_good, by simp, rfl, ?_, rfl, rfl⟩⟩
  unfold run at e
  show step exTotal mpi 2 (.zero 0 mt et kind n m dm 0 1) State.init = .ok s
  cases hz : step exTotal mpi 2 (.zero 0 mt et kind n m dm 0 1) State.init with
  | ok s1 => rw [hz] at e; exact e
  | error => rw [hz] at e; cases e
  | ub => rw [hz] at e; cases e

example : ∃ s, run exTotal true 2 [.zero 0 nDense nReal 8 2 2 none 0 1] State.init = .ok s ∧
    run exTotal true 2 [.assign 1 0, .deallocate 0, .deallocate 1] s = .ub ∧
    copyNew exTotal 0 0 s = .error := by
  obtain ⟨s, e, h0, -⟩ := exF_one true nDense nReal 8 2 2 none
    ⟨by decide, by decide, by decide, by decide, by decide, by decide⟩
  have hs : ∀ c ∈ [Cmd.zero 0 nDense nReal 8 2 2 none 0 1], Safe c := by simp [Safe]
  exact ⟨s, e, C70_assignment_double_free exTotal_good hs e (by decide) h0,
    C70_copy_onto_itself exTotal_good hs e 0⟩

/-- `bml_clear` on a variable whose matrix is at address 4096. -/
example : clear 0 ⟨fun _ => none, fun _ => some 4096, 0⟩ = .error :=
  C70_clear_stops fun a ha => by cases ha; decide

/-- A graph-distributed ELLPACK matrix, its names given with trailing blanks. -/
example : ∃ h A, Constructed true "ellpack   ".toList "real ".toList 8 6 4 (some nGraph) h A ∧
    (∃ s, query h A .type = .ok (.name s) ∧ trim s = nEllpack) ∧
    query h A .elementPrecision = .ok (.int 8) ∧ query h A .distributionMode = .error ∧
    query h A .m = .ok (.int 4) := by
  obtain ⟨s, -, -, hc⟩ := exF_one true "ellpack   ".toList "real ".toList 8 6 4 (some nGraph)
    ⟨by decide, by decide, by decide, by decide, by decide, by decide⟩
  have hl : Local true (some nGraph) := ⟨by decide, by decide⟩
  exact ⟨_, _, hc, (C71_type_partial hc hl (by decide)).1,
    C71_element_precision_partial hc hl.1 (by decide) (by decide),
    C71_graph_mode_stops hc (by decide), C71_width hc hl⟩

/-- A CSR matrix of complex elements. -/
example : ∃ h A, Constructed false nCsr nComplex 4 5 3 none h A ∧ query h A .type = .error ∧
    query h A .elementPrecision = .error ∧ query h A .precision = .ok (.int 3) ∧
    (∃ s, query h A .distributionMode = .ok (.name s) ∧ trim s = nSequential) ∧
    query h A .n = .ok (.int 5) := by
  obtain ⟨s, -, -, hc⟩ := exF_one false nCsr nComplex 4 5 3 none
    ⟨by decide, by decide, by decide, by decide, by decide, by decide⟩
  have hl : Local false none := ⟨by decide, by decide⟩
  exact ⟨_, _, hc, (C71_csr_type_stops hc hl (by decide)).1,
    C71_complex_precision_stops hc hl.1 (by decide) (by decide),
    C71_precision hc hl.1 (by decide) (by decide), C71_mode_partial hc hl (by decide) (by decide),
    (C71_size hc hl.1).1⟩

/-- A distributed ELLPACK matrix on four processes. -/
example : ∃ h A, Constructed true nEllpack nReal 4 4 4 (some nDistributed) h A ∧
    (∃ s, query h A .type = .ok (.name s) ∧ trim s = nCsr) ∧
    (∃ s, query h A .deepType = .ok (.name s) ∧ trim s = nEllpack) ∧
    (∃ s, query h A .elementType = .ok (.name s) ∧ trim s = nReal) ∧
    query h A .distributionMode = .error := by
  obtain ⟨s, -, -, hc⟩ := exF_one true nEllpack nReal 4 4 4 (some nDistributed)
    ⟨by decide, by decide, by decide, by decide, by decide, by decide⟩
  exact ⟨_, _, hc, C71_distributed_is_csr hc (by decide),
    C71_deep_type_distributed_partial hc (by decide) (by decide),
    C71_element_type_partial hc (by decide) (by decide) (by decide),
    C71_distributed_mode_stops hc (by decide)⟩

end Bml.Props
