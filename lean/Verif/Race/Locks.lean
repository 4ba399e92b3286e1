import Verif.Race.Sim

/-!
# Teams whose threads share locations under locks

A thread reads constant locations, and otherwise works in critical sections, each under the lock that
protects what it touches.  Then the team does what it would do if every section were one step, in the
order in which the locks are taken.
-/

namespace Bml
namespace Race

variable {Loc : Type} [DecidableEq Loc] {ty : Loc → Type} {σ ι : Type}

/-- A thread outside of critical sections: it has `n` steps to do outside and the sections `S`. -/
inductive Outside (m0 : Mem ty) (ro : Loc → Prop) (lk : ι → Loc) (body : ι → Prog ty Unit) :
    Nat → List ι → Prog ty σ → Prop
  | ret (a : σ) : Outside m0 ro lk body 0 [] (.ret a)
  | rd {n : Nat} {S : List ι} (l : Loc) (k : ty l → Prog ty σ) (hl : ro l)
      (h : Outside m0 ro lk body n S (k (m0 l))) : Outside m0 ro lk body (n + 1) S (.rd l k)
  | sec {n : Nat} {S : List ι} (s : ι) (k : Prog ty σ) (h : Outside m0 ro lk body n S k) :
      Outside m0 ro lk body (n + 2) (s :: S) (.acq (lk s) ((body s).bind fun _ => .rel (lk s) k))

/-- Bookkeeping: the sections begun, the memory if they were complete, the sections to be done by each
thread, the section each thread is in, and a bound for the steps each thread has to do. -/
structure Ghost (ty : Loc → Type) (ι : Type) where
  done : List ι
  mem : Mem ty
  todo : Nat → List ι
  ins : Nat → Option ι
  cost : Nat → Nat

/-- What holds in every reachable state. -/
structure Locked (m0 : Mem ty) (ro : Loc → Prop) (lk : ι → Loc) (body : ι → Prog ty Unit)
    (prot : Loc → Loc → Prop) (Inv : List ι → Mem ty → Prop) (all : List ι) (T B : Nat) (s : Team ty σ)
    (g : Ghost ty ι) : Prop where
  inv : Inv g.done g.mem
  perm : (g.done ++ (List.range T).flatMap g.todo).Perm all
  out : ∀ t, T ≤ t → g.cost t = 0
  const : ∀ l, (∀ k, ¬ prot k l) → s.mem l = m0 l ∧ g.mem l = m0 l
  one : ∀ t t' i i', g.ins t = some i → g.ins t' = some i' → lk i = lk i' → t = t'
  heldBy : ∀ k, s.held k = true → ∃ t i, g.ins t = some i ∧ lk i = k
  held : ∀ t i, g.ins t = some i → s.held (lk i) = true
  begun : ∀ t i, g.ins t = some i → i ∈ g.done
  free : ∀ k, s.held k = false → ∀ l, prot k l → s.mem l = g.mem l
  outside : ∀ t, g.ins t = none → ∃ n, Outside m0 ro lk body n (g.todo t) (s.prog t) ∧
    n + B * (g.todo t).length ≤ g.cost t
  inside : ∀ t i, g.ins t = some i → ∃ (n : Nat) (p : Prog ty Unit) (k : Prog ty σ), Outside m0 ro lk body n (g.todo t) k ∧
    s.prog t = p.bind (fun _ : Unit => .rel (lk i) k) ∧
    p.wp (prot (lk i)) ro s.mem (fun _ m => ∀ l, prot (lk i) l → m l = g.mem l) ∧
    p.length s.mem + 1 + n + B * (g.todo t).length ≤ g.cost t

variable {m0 : Mem ty} {ro : Loc → Prop} {lk : ι → Loc} {body : ι → Prog ty Unit}
  {prot : Loc → Loc → Prop} {Inv : List ι → Mem ty → Prop} {all : List ι} {T B : Nat} {s : Team ty σ}
  {g : Ghost ty ι}

/-- The steps all threads have to do. -/
def Ghost.total (g : Ghost ty ι) (T : Nat) : Nat := ((List.range T).map g.cost).sum

omit [DecidableEq Loc] in
theorem Ghost.total_lt {g g' : Ghost ty ι} {t : Nat} (ht : t < T) (h : ∀ t', t' ≠ t → g'.cost t' = g.cost t')
    (hlt : g'.cost t < g.cost t) : 1 + g'.total T ≤ g.total T := by
  have := Team.sum_lt_of (f := g'.cost) (g := g.cost) (List.range T) (fun t' _ => by
    by_cases c : t' = t
    · subst c
      omega
    · rw [h t' c]) (List.mem_range.2 ht) hlt
  unfold total
  omega

theorem flatMap_upd {β : Type} {f f' : Nat → List β} {x : β} {t T : Nat} (ht : t < T) (hx : f t = x :: f' t)
    (h : ∀ t', t' ≠ t → f' t' = f t') :
    ((List.range T).flatMap f).Perm (x :: (List.range T).flatMap f') := by
  induction T with
  | zero => omega
  | succ T ih =>
    rw [List.range_succ, List.flatMap_append, List.flatMap_append]
    simp only [List.flatMap_cons, List.flatMap_nil, List.append_nil]
    by_cases c : t = T
    · subst c
      have e : (List.range t).flatMap f = (List.range t).flatMap f' := by
        apply List.flatMap_congr
        intro a ha
        have := List.mem_range.1 ha
        rw [h a (by omega)]
      rw [e, hx]
      exact List.perm_middle
    · rw [← h T (by omega), ← List.cons_append]
      exact (ih (by omega)).append_right _

/-- The rules of the locks. -/
structure LockRules (m0 : Mem ty) (ro : Loc → Prop) (lk : ι → Loc) (body : ι → Prog ty Unit)
    (prot : Loc → Loc → Prop) (Inv : List ι → Mem ty → Prop) (all : List ι) (B : Nat)
    (inb : Loc → Bool) : Prop where
  /-- Different locks protect different locations. -/
  apart : ∀ k k' l, k ≠ k' → prot k l → ¬ prot k' l
  /-- Locations read outside are not protected, that is, constant. -/
  const : ∀ l, ro l → ∀ k, ¬ prot k l
  bounds : ∀ l, (∃ k, prot k l) ∨ ro l → inb l = true
  lock : ∀ i ∈ all, inb (lk i) = true
  /-- A section that is still to be done can be done, within the protected locations. -/
  sec : ∀ done i rest m, (done ++ i :: rest).Perm all → Inv done m → (∀ l, (∀ k, ¬ prot k l) → m l = m0 l) →
    (body i).wp (prot (lk i)) ro m fun _ m' => Inv (done ++ [i]) m'
  len : ∀ i m, (body i).length m ≤ B

theorem cost_pos (h : Locked m0 ro lk body prot Inv all T B s g) {t : Nat} (hc : 1 ≤ g.cost t) : t < T := by
  by_contra c
  have := h.out t (by omega)
  omega

theorem locked_step {inb : Loc → Bool} (hR : LockRules m0 ro lk body prot Inv all B inb)
    (h : Locked m0 ro lk body prot Inv all T B s g) (t : Nat) :
    ∃ g', Locked m0 ro lk body prot Inv all T B (s.step t) g' ∧
      (if s.can t then 1 else 0) + g'.total T ≤ g.total T := by
  have hro : ∀ l, ro l → s.mem l = m0 l ∧ g.mem l = m0 l := fun l hl => h.const l (hR.const l hl)
  cases hi : g.ins t with
  | none =>
    obtain ⟨n, ho, hn⟩ := h.outside t hi
    cases e : s.prog t with
    | ret a =>
      refine ⟨g, ?_, ?_⟩
      · unfold Team.step
        rw [e]
        exact h
      · unfold Team.can
        rw [e]
        simp
    | rd l k =>
      rw [e] at ho
      generalize htd : g.todo t = td at ho hn
      cases ho with
      | rd _ _ hl ho =>
        rename_i n'
        rw [← htd] at ho hn
        have hT : t < T := cost_pos h (by omega)
        have hs : s.step t = { s with prog := upd s.prog t (k (s.mem l)) } := by
          unfold Team.step
          rw [e]
        refine ⟨{ g with cost := upd g.cost t (n' + B * (g.todo t).length) }, ?_, ?_⟩
        · rw [hs]
          refine { h with out := ?_, outside := ?_, inside := ?_ }
          · intro t' ht'
            show upd _ _ _ _ = _
            rw [upd_ne _ _ (by omega)]
            exact h.out t' ht'
          · intro t' ht'
            by_cases c : t' = t
            · subst c
              refine ⟨n', ?_, ?_⟩
              · show Outside m0 ro lk body n' _ (upd s.prog t' _ t')
                rw [upd_same, (hro l hl).1]
                exact ho
              · show _ ≤ upd _ _ _ _
                rw [upd_same]
            · show ∃ n, Outside m0 ro lk body n _ (upd s.prog t _ t') ∧ _ ≤ upd _ _ _ t'
              rw [upd_ne _ _ c, upd_ne _ _ c]
              exact h.outside t' ht'
          · intro t' i ht'
            have c : t' ≠ t := by
              rintro rfl
              rw [show g.ins t' = some i from ht'] at hi
              cases hi
            show ∃ (n : Nat) (p : Prog ty Unit) (k : Prog ty σ), _ ∧ upd s.prog t _ t' = _ ∧ _ ∧ _ ≤ upd _ _ _ t'
            rw [upd_ne _ _ c, upd_ne _ _ c]
            exact h.inside t' i ht'
        · have hb : (if s.can t then 1 else 0) = 1 := by
            unfold Team.can
            rw [e]
            rfl
          rw [hb]
          refine Ghost.total_lt hT (fun t' c => upd_ne _ _ c) ?_
          show upd _ _ _ _ < _
          rw [upd_same]
          omega
    | acq l k =>
      rw [e] at ho
      generalize htd : g.todo t = td at ho hn
      cases ho with
      | sec i k' ho =>
        rename_i n' S
        by_cases hh : s.held (lk i) = true
        · refine ⟨g, ?_, ?_⟩
          · unfold Team.step
            rw [e]
            simp only [hh, if_true]
            exact h
          · unfold Team.can
            rw [e]
            simp [hh]
        · have hh : s.held (lk i) = false := by simpa using hh
          have hT : t < T := cost_pos h (by omega)
          have hs : s.step t = { s with held := Function.update s.held (lk i) true, prog := upd s.prog t ((body i).bind fun _ => .rel (lk i) k') } := by
            unfold Team.step
            rw [e]
            simp only [hh]
            rfl
          have hperm := flatMap_upd (f := g.todo) (f' := upd g.todo t S) (x := i) hT
            (by rw [htd, upd_same]) fun t' c => upd_ne _ _ c
          have hall : (g.done ++ i :: (List.range T).flatMap (upd g.todo t S)).Perm all :=
            ((hperm.symm).append_left _).trans h.perm
          have hw := hR.sec g.done i _ g.mem hall h.inv fun l hl => (h.const l hl).2
          obtain ⟨_, m', er, hI, hf⟩ := Prog.wp_run (inb := fun _ => true) (Prog.wp_frame hw) fun _ _ => rfl
          have hw' := Prog.wp_of_run hw er
          have hmem : ∀ l, prot (lk i) l ∨ ro l → g.mem l = s.mem l := by
            rintro l (hl | hl)
            · exact (h.free _ hh l hl).symm
            · rw [(hro l hl).1, (hro l hl).2]
          have hws := Prog.wp_congr hw' hmem (by
            intro _ a b hab hq l hl
            rw [← hab l (.inl hl)]
            exact hq l hl)
          have hne : ∀ t' i', g.ins t' = some i' → lk i' ≠ lk i := by
            intro t' i' ht' c
            have := h.held t' i' ht'
            rw [c, hh] at this
            cases this
          refine ⟨⟨g.done ++ [i], m', upd g.todo t S, upd g.ins t (some i),
            upd g.cost t (B + 1 + n' + B * S.length)⟩, ?_, ?_⟩
          · rw [hs]
            refine ⟨hI, ?_, ?_, ?_, ?_, ?_, ?_, ?_, ?_, ?_, ?_⟩
            · show (g.done ++ [i] ++ _).Perm all
              rw [List.append_assoc]
              exact hall
            · intro t' ht'
              show upd _ _ _ _ = _
              rw [upd_ne _ _ (by omega)]
              exact h.out t' ht'
            · intro l hl
              refine ⟨(h.const l hl).1, ?_⟩
              show m' l = _
              rw [hf l (hl _)]
              exact (h.const l hl).2
            · intro t1 t2 i1 i2 h1 h2 hl
              change upd g.ins t (some i) t1 = _ at h1
              change upd g.ins t (some i) t2 = _ at h2
              by_cases c1 : t1 = t <;> by_cases c2 : t2 = t
              · rw [c1, c2]
              · subst c1
                rw [upd_same] at h1
                rw [upd_ne _ _ c2] at h2
                cases h1
                exact absurd hl.symm (hne t2 i2 h2)
              · subst c2
                rw [upd_same] at h2
                rw [upd_ne _ _ c1] at h1
                cases h2
                exact absurd hl (hne t1 i1 h1)
              · rw [upd_ne _ _ c1] at h1
                rw [upd_ne _ _ c2] at h2
                exact h.one t1 t2 i1 i2 h1 h2 hl
            · intro k hk
              change Function.update s.held (lk i) true k = true at hk
              show ∃ t' i', upd g.ins t (some i) t' = some i' ∧ _
              by_cases c : k = lk i
              · exact ⟨t, i, upd_same _ _ _, c.symm⟩
              · rw [Function.update_of_ne c] at hk
                obtain ⟨t', i', h1, h2⟩ := h.heldBy k hk
                refine ⟨t', i', ?_, h2⟩
                rw [upd_ne _ _ ?_]
                · exact h1
                · rintro rfl
                  rw [hi] at h1
                  cases h1
            · intro t' i' ht'
              change upd g.ins t (some i) t' = _ at ht'
              show Function.update s.held (lk i) true (lk i') = true
              by_cases c : lk i' = lk i
              · rw [c, Function.update_self]
              · rw [Function.update_of_ne c]
                by_cases ct : t' = t
                · subst ct
                  rw [upd_same] at ht'
                  cases ht'
                  exact absurd rfl c
                · rw [upd_ne _ _ ct] at ht'
                  exact h.held t' i' ht'
            · intro t' i' ht'
              change upd g.ins t (some i) t' = _ at ht'
              show i' ∈ g.done ++ [i]
              by_cases ct : t' = t
              · subst ct
                rw [upd_same] at ht'
                cases ht'
                simp
              · rw [upd_ne _ _ ct] at ht'
                exact List.mem_append_left _ (h.begun t' i' ht')
            · intro k hk l hl
              change Function.update s.held (lk i) true k = false at hk
              have c : k ≠ lk i := by
                rintro rfl
                rw [Function.update_self] at hk
                cases hk
              rw [Function.update_of_ne c] at hk
              show s.mem l = m' l
              rw [hf l (hR.apart k _ l c hl)]
              exact h.free k hk l hl
            · intro t' ht'
              change upd g.ins t (some i) t' = _ at ht'
              have c : t' ≠ t := by
                rintro rfl
                rw [upd_same] at ht'
                cases ht'
              rw [upd_ne _ _ c] at ht'
              show ∃ n, Outside m0 ro lk body n (upd g.todo t S t') (upd s.prog t _ t') ∧
                n + B * (upd g.todo t S t').length ≤ upd _ _ _ t'
              rw [upd_ne _ _ c, upd_ne _ _ c, upd_ne _ _ c]
              exact h.outside t' ht'
            · intro t' i' ht'
              change upd g.ins t (some i) t' = _ at ht'
              show ∃ (n : Nat) (p : Prog ty Unit) (k : Prog ty σ), Outside m0 ro lk body n (upd g.todo t S t') k ∧ upd s.prog t _ t' = _ ∧
                p.wp _ _ s.mem (fun _ m => ∀ l, prot (lk i') l → m l = m' l) ∧
                _ + B * (upd g.todo t S t').length ≤ upd _ _ _ t'
              by_cases c : t' = t
              · subst c
                rw [upd_same] at ht'
                cases ht'
                rw [upd_same, upd_same, upd_same]
                refine ⟨n', body i, k', ho, rfl, hws, ?_⟩
                have := hR.len i s.mem
                show (body i).length s.mem + 1 + n' + B * S.length ≤ _
                omega
              · rw [upd_ne _ _ c] at ht'
                rw [upd_ne _ _ c, upd_ne _ _ c, upd_ne _ _ c]
                obtain ⟨n2, p2, k2, a1, a2, a3, a4⟩ := h.inside t' i' ht'
                refine ⟨n2, p2, k2, a1, a2, ?_, a4⟩
                refine Prog.wp_mono a3 fun _ m hm l hl => ?_
                rw [hm l hl, hf l (hR.apart _ _ l (hne t' i' ht') hl)]
          · have hb : (if s.can t then 1 else 0) = 1 := by
              unfold Team.can
              rw [e]
              simp [hh]
            rw [hb]
            refine Ghost.total_lt hT (fun t' c => upd_ne _ _ c) ?_
            show upd _ _ _ _ < _
            rw [upd_same]
            rw [List.length_cons, Nat.mul_add] at hn
            omega
    | wr l v k => rw [e] at ho; generalize g.todo t = td at ho; cases ho
    | rel l k => rw [e] at ho; generalize g.todo t = td at ho; cases ho
    | fail => rw [e] at ho; generalize g.todo t = td at ho; cases ho
    | ub => rw [e] at ho; generalize g.todo t = td at ho; cases ho
  | some i =>
    obtain ⟨n, p, k, ho, hp, hw, hn⟩ := h.inside t i hi
    have hT : t < T := cost_pos h (by omega)
    have hne : ∀ t' i', t' ≠ t → g.ins t' = some i' → lk i' ≠ lk i := fun t' i' c ht' hl =>
      c (h.one t' t i' i ht' hi hl)
    cases p with
    | ret a =>
      have e : s.prog t = .rel (lk i) k := hp
      have hs : s.step t = { s with held := Function.update s.held (lk i) false, prog := upd s.prog t k } := by
        unfold Team.step
        rw [e]
      refine ⟨{ g with ins := upd g.ins t none, cost := upd g.cost t (n + B * (g.todo t).length) }, ?_, ?_⟩
      · rw [hs]
        refine ⟨h.inv, h.perm, ?_, h.const, ?_, ?_, ?_, ?_, ?_, ?_, ?_⟩
        · intro t' ht'
          show upd _ _ _ _ = _
          rw [upd_ne _ _ (by omega)]
          exact h.out t' ht'
        · intro t1 t2 i1 i2 h1 h2 hl
          change upd g.ins t none t1 = _ at h1
          change upd g.ins t none t2 = _ at h2
          have c1 : t1 ≠ t := by
            rintro rfl
            rw [upd_same] at h1
            cases h1
          have c2 : t2 ≠ t := by
            rintro rfl
            rw [upd_same] at h2
            cases h2
          rw [upd_ne _ _ c1] at h1
          rw [upd_ne _ _ c2] at h2
          exact h.one t1 t2 i1 i2 h1 h2 hl
        · intro k1 hk
          change Function.update s.held (lk i) false k1 = true at hk
          have c : k1 ≠ lk i := by
            rintro rfl
            rw [Function.update_self] at hk
            cases hk
          rw [Function.update_of_ne c] at hk
          obtain ⟨t', i', h1, h2⟩ := h.heldBy k1 hk
          refine ⟨t', i', ?_, h2⟩
          show upd g.ins t none t' = _
          rw [upd_ne _ _ ?_]
          · exact h1
          · rintro rfl
            rw [hi] at h1
            cases h1
            exact c h2.symm
        · intro t' i' ht'
          change upd g.ins t none t' = _ at ht'
          have c : t' ≠ t := by
            rintro rfl
            rw [upd_same] at ht'
            cases ht'
          rw [upd_ne _ _ c] at ht'
          show Function.update s.held (lk i) false (lk i') = true
          rw [Function.update_of_ne (hne t' i' c ht')]
          exact h.held t' i' ht'
        · intro t' i' ht'
          change upd g.ins t none t' = _ at ht'
          have c : t' ≠ t := by
            rintro rfl
            rw [upd_same] at ht'
            cases ht'
          rw [upd_ne _ _ c] at ht'
          exact h.begun t' i' ht'
        · intro k1 hk l hl
          change Function.update s.held (lk i) false k1 = false at hk
          by_cases c : k1 = lk i
          · subst c
            exact hw l hl
          · rw [Function.update_of_ne c] at hk
            exact h.free k1 hk l hl
        · intro t' ht'
          change upd g.ins t none t' = _ at ht'
          show ∃ n, Outside m0 ro lk body n _ (upd s.prog t _ t') ∧ _ ≤ upd _ _ _ t'
          by_cases c : t' = t
          · subst c
            rw [upd_same, upd_same]
            exact ⟨n, ho, le_refl _⟩
          · rw [upd_ne _ _ c] at ht'
            rw [upd_ne _ _ c, upd_ne _ _ c]
            exact h.outside t' ht'
        · intro t' i' ht'
          change upd g.ins t none t' = _ at ht'
          have c : t' ≠ t := by
            rintro rfl
            rw [upd_same] at ht'
            cases ht'
          rw [upd_ne _ _ c] at ht'
          show ∃ (n : Nat) (p : Prog ty Unit) (k : Prog ty σ), _ ∧ upd s.prog t _ t' = _ ∧ _ ∧ _ ≤ upd _ _ _ t'
          rw [upd_ne _ _ c, upd_ne _ _ c]
          exact h.inside t' i' ht'
      · have hb : (if s.can t then 1 else 0) = 1 := by
          unfold Team.can
          rw [e]
          rfl
        rw [hb]
        refine Ghost.total_lt hT (fun t' c => upd_ne _ _ c) ?_
        show upd _ _ _ _ < _
        rw [upd_same]
        omega
    | rd l q =>
      have e : s.prog t = .rd l fun v => (q v).bind fun _ => .rel (lk i) k := hp
      have hs : s.step t = { s with prog := upd s.prog t ((q (s.mem l)).bind fun _ => .rel (lk i) k) } := by
        unfold Team.step
        rw [e]
      have hlen : (Prog.rd l q).length s.mem = (q (s.mem l)).length s.mem + 1 := rfl
      refine ⟨{ g with cost := upd g.cost t ((q (s.mem l)).length s.mem + 1 + n + B * (g.todo t).length) }, ?_, ?_⟩
      · rw [hs]
        refine { h with out := ?_, outside := ?_, inside := ?_ }
        · intro t' ht'
          show upd _ _ _ _ = _
          rw [upd_ne _ _ (by omega)]
          exact h.out t' ht'
        · intro t' ht'
          have c : t' ≠ t := by
            rintro rfl
            rw [show g.ins t' = none from ht'] at hi
            cases hi
          show ∃ n, Outside m0 ro lk body n _ (upd s.prog t _ t') ∧ _ ≤ upd _ _ _ t'
          rw [upd_ne _ _ c, upd_ne _ _ c]
          exact h.outside t' ht'
        · intro t' i' ht'
          show ∃ (n : Nat) (p : Prog ty Unit) (k : Prog ty σ), _ ∧ upd s.prog t _ t' = _ ∧ _ ∧ _ ≤ upd _ _ _ t'
          by_cases c : t' = t
          · subst c
            rw [show g.ins t' = some i' from ht'] at hi
            cases hi
            rw [upd_same, upd_same]
            exact ⟨n, q (s.mem l), k, ho, rfl, hw.2, le_refl _⟩
          · rw [upd_ne _ _ c, upd_ne _ _ c]
            exact h.inside t' i' ht'
      · have hb : (if s.can t then 1 else 0) = 1 := by
          unfold Team.can
          rw [e]
          rfl
        rw [hb]
        refine Ghost.total_lt hT (fun t' c => upd_ne _ _ c) ?_
        show upd _ _ _ _ < _
        rw [upd_same]
        omega
    | wr l v q =>
      have e : s.prog t = .wr l v (q.bind fun _ => .rel (lk i) k) := hp
      have hs : s.step t = { s with mem := Function.update s.mem l v, prog := upd s.prog t (q.bind fun _ => .rel (lk i) k) } := by
        unfold Team.step
        rw [e]
      have hlen : (Prog.wr l v q).length s.mem = q.length (Function.update s.mem l v) + 1 := rfl
      refine ⟨{ g with cost := upd g.cost t (q.length (Function.update s.mem l v) + 1 + n + B * (g.todo t).length) }, ?_, ?_⟩
      · rw [hs]
        refine { h with out := ?_, const := ?_, free := ?_, outside := ?_, inside := ?_ }
        · intro t' ht'
          show upd _ _ _ _ = _
          rw [upd_ne _ _ (by omega)]
          exact h.out t' ht'
        · intro l' hl'
          refine ⟨?_, (h.const l' hl').2⟩
          show Function.update s.mem l v l' = _
          rw [Function.update_of_ne]
          · exact (h.const l' hl').1
          · rintro rfl
            exact hl' _ hw.1
        · intro k1 hk l' hl'
          show Function.update s.mem l v l' = _
          rw [Function.update_of_ne]
          · exact h.free k1 hk l' hl'
          · rintro rfl
            have c : k1 ≠ lk i := by
              rintro rfl
              have := h.held t i hi
              rw [show s.held (lk i) = false from hk] at this
              cases this
            exact hR.apart k1 _ l' c hl' hw.1
        · intro t' ht'
          have c : t' ≠ t := by
            rintro rfl
            rw [show g.ins t' = none from ht'] at hi
            cases hi
          show ∃ n, Outside m0 ro lk body n _ (upd s.prog t _ t') ∧ _ ≤ upd _ _ _ t'
          rw [upd_ne _ _ c, upd_ne _ _ c]
          exact h.outside t' ht'
        · intro t' i' ht'
          show ∃ (n : Nat) (p : Prog ty Unit) (k : Prog ty σ), _ ∧ upd s.prog t _ t' = _ ∧ p.wp _ _ (Function.update s.mem l v) _ ∧
            p.length (Function.update s.mem l v) + 1 + n + _ ≤ upd _ _ _ t'
          by_cases c : t' = t
          · subst c
            rw [show g.ins t' = some i' from ht'] at hi
            cases hi
            rw [upd_same, upd_same]
            exact ⟨n, q, k, ho, rfl, hw.2, le_refl _⟩
          · rw [upd_ne _ _ c, upd_ne _ _ c]
            obtain ⟨n2, p2, k2, a1, a2, a3, a4⟩ := h.inside t' i' ht'
            have hag : ∀ l', prot (lk i') l' ∨ ro l' → s.mem l' = Function.update s.mem l v l' := by
              intro l' hl'
              rw [Function.update_of_ne]
              rintro rfl
              exact hl'.elim (fun g => hR.apart _ _ l' (hne t' i' c ht') g hw.1) fun g => hR.const l' g _ hw.1
            refine ⟨n2, p2, k2, a1, a2, Prog.wp_congr a3 hag ?_, ?_⟩
            · intro _ a b hab hq l' hl'
              rw [← hab l' (.inl hl')]
              exact hq l' hl'
            · rw [← Prog.length_congr a3 hag]
              exact a4
      · have hb : (if s.can t then 1 else 0) = 1 := by
          unfold Team.can
          rw [e]
          rfl
        rw [hb]
        refine Ghost.total_lt hT (fun t' c => upd_ne _ _ c) ?_
        show upd _ _ _ _ < _
        rw [upd_same]
        omega
    | acq l q => exact hw.elim
    | rel l q => exact hw.elim
    | fail => exact hw.elim
    | ub => exact hw.elim

theorem locked_exec {inb : Loc → Bool} (hR : LockRules m0 ro lk body prot Inv all B inb)
    (h : Locked m0 ro lk body prot Inv all T B s g) (cs : List Nat) :
    (∃ g', Locked m0 ro lk body prot Inv all T B (s.exec cs) g') ∧ s.moves cs ≤ g.total T := by
  induction cs generalizing s g with
  | nil => exact ⟨⟨g, h⟩, Nat.zero_le _⟩
  | cons t cs ih =>
    obtain ⟨g', h', hle⟩ := locked_step hR h t
    obtain ⟨h1, h2⟩ := ih h'
    refine ⟨h1, ?_⟩
    show _ + (s.step t).moves cs ≤ _
    omega

theorem outside_mem {n : Nat} {S : List ι} {p : Prog ty σ} (h : Outside m0 ro lk body n S p) :
    ¬ p.broken ∧ (∀ w l, p.next = some (w, l) → ro l ∧ w = false) ∧
      ∀ l, p.uses = some l → ro l ∨ ∃ i ∈ S, lk i = l := by
  cases h with
  | ret a => exact ⟨id, fun _ _ e => (by cases e), fun _ e => by cases e⟩
  | rd l k hl ho => exact ⟨id, fun _ _ e => (by cases e; exact ⟨hl, rfl⟩), fun _ e => by cases e; exact .inl hl⟩
  | sec i k ho => exact ⟨id, fun _ _ e => (by cases e), fun _ e => by cases e; exact .inr ⟨i, by simp, rfl⟩⟩

theorem bind_next {p : Prog ty Unit} {l : Loc} {k : Prog ty σ} {o r : Loc → Prop} {m : Mem ty}
    {Q : Unit → Mem ty → Prop} (h : p.wp o r m Q) : ¬ (p.bind fun _ => Prog.rel l k).broken ∧
      (∀ w l', (p.bind fun _ => Prog.rel l k).next = some (w, l') → (o l' ∨ r l') ∧ (w = true → o l')) ∧
      ∀ l', (p.bind fun _ => Prog.rel l k).uses = some l' → o l' ∨ r l' ∨ l' = l := by
  cases p with
  | ret a => exact ⟨id, fun _ _ e => (by cases e), fun _ e => by cases e; exact .inr (.inr rfl)⟩
  | rd l1 q =>
    exact ⟨id, fun _ _ e => (by cases e; exact ⟨h.1, fun c => by cases c⟩),
      fun _ e => by cases e; exact h.1.elim .inl fun c => .inr (.inl c)⟩
  | wr l1 v q =>
    exact ⟨id, fun _ _ e => (by cases e; exact ⟨.inl h.1, fun _ => h.1⟩), fun _ e => by cases e; exact .inl h.1⟩
  | acq l1 q => exact h.elim
  | rel l1 q => exact h.elim
  | fail => exact h.elim
  | ub => exact h.elim

theorem todo_mem (h : Locked m0 ro lk body prot Inv all T B s g) {t : Nat} {i : ι} (ht : t < T)
    (hi : i ∈ g.todo t) : i ∈ all :=
  h.perm.subset (List.mem_append_right _ (List.mem_flatMap.2 ⟨t, List.mem_range.2 ht, hi⟩))

theorem begun_mem (h : Locked m0 ro lk body prot Inv all T B s g) {t : Nat} {i : ι} (hi : g.ins t = some i) :
    i ∈ all :=
  h.perm.subset (List.mem_append_left _ (h.begun t i hi))

theorem todo_nil (h : Locked m0 ro lk body prot Inv all T B s g) {t : Nat} (ht : T ≤ t)
    (hi : g.ins t = none) : g.todo t = [] := by
  obtain ⟨n, ho, hn⟩ := h.outside t hi
  rw [h.out t ht] at hn
  generalize g.todo t = td at ho hn
  generalize s.prog t = p at ho
  cases ho with
  | ret => rfl
  | rd => omega
  | sec => omega

theorem locked_race {inb : Loc → Bool} (hR : LockRules m0 ro lk body prot Inv all B inb)
    (h : Locked m0 ro lk body prot Inv all T B s g) : ¬ s.Racing := by
  have key : ∀ t t' w l, t ≠ t' → (s.prog t).next = some (true, l) → (s.prog t').next = some (w, l) → False := by
    intro t t' w l hne h1 h2
    cases hi : g.ins t with
    | none =>
      obtain ⟨n, ho, -⟩ := h.outside t hi
      cases ((outside_mem ho).2.1 _ _ h1).2
    | some i =>
      obtain ⟨n, p, k, ho, hp, hw, -⟩ := h.inside t i hi
      rw [hp] at h1
      have hl := ((bind_next hw).2.1 _ _ h1).2 rfl
      cases hi' : g.ins t' with
      | none =>
        obtain ⟨n', ho', -⟩ := h.outside t' hi'
        exact hR.const l ((outside_mem ho').2.1 _ _ h2).1 _ hl
      | some i' =>
        obtain ⟨n', p', k', ho', hp', hw', -⟩ := h.inside t' i' hi'
        rw [hp'] at h2
        rcases ((bind_next hw').2.1 _ _ h2).1 with g1 | g1
        · exact hR.apart _ _ l (fun c => hne (h.one t t' i i' hi hi' c)) hl g1
        · exact hR.const l g1 _ hl
  rintro ⟨t, t', w, w', l, hne, h1, h2, hw | hw⟩
  · subst hw
    exact key t t' w' l hne h1 h2
  · subst hw
    exact key t' t w l hne.symm h2 h1

theorem locked_sound {inb : Loc → Bool} (hR : LockRules m0 ro lk body prot Inv all B inb)
    (h : Locked m0 ro lk body prot Inv all T B s g) : ¬ s.Broken inb := by
  rintro ⟨t, hb⟩
  cases hi : g.ins t with
  | none =>
    obtain ⟨n, ho, hn⟩ := h.outside t hi
    have hm := outside_mem ho
    rcases hb with hb | ⟨l, hl, hf⟩
    · exact hm.1 hb
    · rcases hm.2.2 l hl with g1 | ⟨i, g1, rfl⟩
      · rw [hR.bounds l (.inr g1)] at hf
        cases hf
      · have ht : t < T := by
          by_contra c
          rw [todo_nil h (by omega) hi] at g1
          cases g1
        rw [hR.lock i (todo_mem h ht g1)] at hf
        cases hf
  | some i =>
    obtain ⟨n, p, k, ho, hp, hw, -⟩ := h.inside t i hi
    have hm := bind_next (l := lk i) (k := k) hw
    rw [← hp] at hm
    rcases hb with hb | ⟨l, hl, hf⟩
    · exact hm.1 hb
    · rcases hm.2.2 l hl with g1 | g1 | rfl
      · rw [hR.bounds l (.inl ⟨_, g1⟩)] at hf
        cases hf
      · rw [hR.bounds l (.inr g1)] at hf
        cases hf
      · rw [hR.lock i (begun_mem h hi)] at hf
        cases hf

theorem inside_can (h : Locked m0 ro lk body prot Inv all T B s g) {t : Nat} {i : ι} (hi : g.ins t = some i) :
    s.can t = true := by
  obtain ⟨n, p, k, ho, hp, hw, -⟩ := h.inside t i hi
  unfold Team.can
  rw [hp]
  cases p with
  | ret a => rfl
  | rd l q => rfl
  | wr l v q => rfl
  | acq l q => exact hw.elim
  | rel l q => exact hw.elim
  | fail => exact hw.elim
  | ub => exact hw.elim

theorem locked_live (h : Locked m0 ro lk body prot Inv all T B s g) (hc : ∀ t, s.can t = false) :
    s.Finished := by
  intro t
  cases hi : g.ins t with
  | none =>
    obtain ⟨n, ho, -⟩ := h.outside t hi
    have hct := hc t
    unfold Team.can at hct
    generalize g.todo t = td at ho
    generalize s.prog t = p at ho hct
    cases ho with
    | ret => exact trivial
    | rd => cases hct
    | sec i k ho =>
      simp only [Bool.not_eq_eq_eq_not, Bool.not_false] at hct
      obtain ⟨t', i', h1, -⟩ := h.heldBy _ hct
      have := inside_can h h1
      rw [hc t'] at this
      cases this
  | some i =>
    have := inside_can h hi
    rw [hc t] at this
    cases this

theorem locked_result (h : Locked m0 ro lk body prot Inv all T B s g) (hf : s.Finished) :
    (∃ done : List ι, done.Perm all ∧ Inv done s.mem) ∧ ∀ l, (∀ k, ¬ prot k l) → s.mem l = m0 l := by
  have hins : ∀ t, g.ins t = none := by
    intro t
    cases hi : g.ins t with
    | none => rfl
    | some i =>
      obtain ⟨n, p, k, ho, hp, hw, -⟩ := h.inside t i hi
      have := hf t
      rw [hp] at this
      cases p with
      | ret a => exact this.elim
      | rd l q => exact this.elim
      | wr l v q => exact this.elim
      | acq l q => exact hw.elim
      | rel l q => exact hw.elim
      | fail => exact hw.elim
      | ub => exact hw.elim
  have htodo : ∀ t, g.todo t = [] := by
    intro t
    obtain ⟨n, ho, -⟩ := h.outside t (hins t)
    have := hf t
    generalize g.todo t = td at ho
    generalize s.prog t = p at ho this
    cases ho with
    | ret => rfl
    | rd => exact this.elim
    | sec => exact this.elim
  have hfree : ∀ k, s.held k = false := by
    intro k
    by_contra c
    obtain ⟨t, i, h1, -⟩ := h.heldBy k (by simpa using c)
    rw [hins t] at h1
    cases h1
  have hmem : s.mem = g.mem := by
    funext l
    by_cases c : ∃ k, prot k l
    · obtain ⟨k, hk⟩ := c
      exact h.free k (hfree k) l hk
    · have := h.const l fun k hk => c ⟨k, hk⟩
      rw [this.1, this.2]
  refine ⟨⟨g.done, ?_, ?_⟩, fun l hl => (h.const l hl).1⟩
  · have := h.perm
    rwa [show (List.range T).flatMap g.todo = [] from by simp [htodo], List.append_nil] at this
  · rw [hmem]
    exact h.inv

/-- Critical sections under locks: no data race, no deadlock, and the result of the sections done one
after the other in some order. -/
theorem locked_safe {inb : Loc → Bool} (hR : LockRules m0 ro lk body prot Inv all B inb) {cost : Nat → Nat}
    {todo : Nat → List ι} (hm : s.mem = m0) (hh : ∀ k, s.held k = false) (h0 : Inv [] m0)
    (ho : ∀ t, Outside m0 ro lk body (cost t) (todo t) (s.prog t)) (hT : ∀ t, T ≤ t → cost t = 0)
    (hall : ((List.range T).flatMap todo).Perm all) :
    s.Safe inb fun m => (∃ done : List ι, done.Perm all ∧ Inv done m) ∧ ∀ l, (∀ k, ¬ prot k l) → m l = m0 l := by
  have hnil : ∀ t, T ≤ t → todo t = [] := by
    intro t ht
    have h1 := ho t
    rw [hT t ht] at h1
    generalize todo t = td at h1
    generalize s.prog t = p at h1
    cases h1
    rfl
  have h : Locked m0 ro lk body prot Inv all T B s
      ⟨[], m0, todo, fun _ => none, fun t => cost t + B * (todo t).length⟩ := by
    refine ⟨h0, hall, ?_, ?_, ?_, ?_, ?_, ?_, ?_, ?_, ?_⟩
    · intro t ht
      show cost t + B * (todo t).length = 0
      rw [hT t ht, hnil t ht]
      rfl
    · intro l _
      exact ⟨by rw [hm], rfl⟩
    · intro t t' i i' h1
      cases h1
    · intro k hk
      rw [hh k] at hk
      cases hk
    · intro t i h1
      cases h1
    · intro t i h1
      cases h1
    · intro k _ l _
      rw [hm]
    · intro t _
      exact ⟨cost t, ho t, le_refl _⟩
    · intro t i h1
      cases h1
  refine ⟨?_, ?_, ⟨_, fun cs => (locked_exec hR h cs).2⟩, ?_, ?_⟩
  · intro cs
    obtain ⟨g', h'⟩ := (locked_exec hR h cs).1
    exact locked_race hR h'
  · intro cs
    obtain ⟨g', h'⟩ := (locked_exec hR h cs).1
    exact locked_sound hR h'
  · intro cs hc
    obtain ⟨g', h'⟩ := (locked_exec hR h cs).1
    exact locked_live h' hc
  · intro cs hf
    obtain ⟨g', h'⟩ := (locked_exec hR h cs).1
    exact locked_result h' hf

end Race
end Bml
