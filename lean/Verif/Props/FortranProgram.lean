import Verif.Fortran.Program
import Verif.Props.Program

/-!
# Property C80: Fortran programs compute with matrices as the interface says

`Spec.fortran` is the meaning of the statements of a Fortran program on mathematical matrices, with
the documented defaults (factors `α = 1` and `β = 0`, threshold `0`) and indices that count from one.
-/

namespace Bml.Spec

open Fortran.Program (Call Question Stmt)
open Elemental (Kind)

variable {R Q : Type} [CommRing R] [DecidableEq R] [Zero Q]

/-- What a call of a Fortran procedure makes of the matrices `s` of size `N`.  `cut t` replaces numbers
of absolute value at most `t` by zero (the dense format leaves them, except in `bml_threshold`, which
uses `cut'`).  The diagonal of a product is kept whatever the threshold (C12-C14). -/
def fortranCall (N : Nat) (cut cut' : Q → R → R) (s : Nat → Mat R) : Call R Q → Nat → Mat R
  | .zero v => upd s v fun _ _ => 0
  | .identity v => upd s v fun i j => if i = j then 1 else 0
  | .setElement _ i j x v => upd s v fun i' j' => if i' + 1 = i ∧ j' + 1 = j then x else s v i' j'
  | .setRow _ i row none v => upd s v fun i' j' => if i' + 1 = i then cut 0 (row.get j') else s v i' j'
  | .setRow _ i row (some t) v => upd s v fun i' j' =>
      if i' + 1 = i then cut t (row.get j') else s v i' j'
  | .setDiagonal _ d none v => upd s v fun i j => if i = j then cut 0 (d.get i) else s v i j
  | .setDiagonal _ d (some t) v => upd s v fun i j => if i = j then cut t (d.get i) else s v i j
  | .copyNew v w => upd s w (s v)
  | .copy v w => upd s w (s v)
  | .scaleOne _ c v => upd s v fun i j => c * s v i j
  | .scaleTwo _ c v w => upd s w fun i j => c * s v i j
  | .add v w α β none => upd s v fun i j => cut 0 (α * s v i j + β * s w i j)
  | .add v w α β (some t) => upd s v fun i j => cut t (α * s v i j + β * s w i j)
  | .addDeprecated α v β w none => upd s v fun i j => cut 0 (α * s v i j + β * s w i j)
  | .addDeprecated α v β w (some t) => upd s v fun i j => cut t (α * s v i j + β * s w i j)
  | .addIdentity v α t => upd s v fun i j => cut t (s v i j + α * one i j)
  | .scaleAddIdentity v α β t => upd s v fun i j => cut t (α * s v i j + β * one i j)
  | .threshold v t => upd s v fun i j => cut' t (s v i j)
  | .multiply v w u α β t =>
      let a : R := match α with | some a => a | none => 1
      let b : R := match β with | some b => b | none => 0
      let c : R → R := match t with | some t => cut t | none => cut 0
      let product : Mat R := fun i j =>
        if i = j then mul N (s v) (s w) i j else c (mul N (s v) (s w) i j)
      upd s u fun i j =>
        if v = w ∧ a = 1 ∧ b = 0 then product i j else c (b * s u i j + a * product i j)
  | .square v w none => upd s w fun i j =>
      if i = j then mul N (s v) (s v) i j else cut 0 (mul N (s v) (s v) i j)
  | .square v w (some t) => upd s w fun i j =>
      if i = j then mul N (s v) (s v) i j else cut t (mul N (s v) (s v) i j)
  | .transpose v w => upd s w fun i j => s v j i

/-- The answer to a question; arrays are listed as Fortran stores them, column by column. -/
def fortranAnswer (N : Nat) (s : Nat → Mat R) : Question → List R
  | .row _ i v => (List.range N).map fun j => s v (i - 1) j
  | .diagonal _ v => (List.range N).map fun i => s v i i
  | .trace v => [tr N (s v)]
  | .sumSquares v => [total N N fun i j => s v i j * s v i j]
  | .dense _ v => (List.range (N * N)).map fun k => s v (k % N) (k / N)

/-- The answers to the questions of a Fortran program. -/
def fortran (N : Nat) (cut cut' : Q → R → R) : List (Stmt R Q) → (Nat → Mat R) → List (List R)
  | [], _ => []
  | .call c :: cs, s => fortran N cut cut' cs (fortranCall N cut cut' s c)
  | .ask q :: cs, s => fortranAnswer N s q :: fortran N cut cut' cs s

/-- The variables a call reads or changes and that must exist. -/
def fortranUses : Call R Q → List Nat
  | .zero _ | .identity _ => []
  | .setElement _ _ _ _ v | .setRow _ _ _ _ v | .setDiagonal _ _ _ v | .scaleOne _ _ v
  | .addIdentity v _ _ | .scaleAddIdentity v _ _ _ | .threshold v _ => [v]
  | .copyNew v _ | .transpose v _ => [v]
  | .copy v w | .scaleTwo _ _ v w | .add v w _ _ _ | .addDeprecated _ v _ w _ | .square v w _ => [v, w]
  | .multiply v w u _ _ _ => [v, w, u]

/-- The variable a call creates. -/
def fortranCreates : Call R Q → Option Nat
  | .zero v | .identity v | .copyNew _ v | .transpose _ v => some v
  | _ => none

/-- Every variable has been created before it is used.  `D` is the set of the variables that exist at
the beginning. -/
def Created : List (Stmt R Q) → (Nat → Prop) → Prop
  | [], _ => True
  | .call c :: cs, D => (∀ v ∈ fortranUses c, D v) ∧
      Created cs (fun v => fortranCreates c = some v ∨ D v)
  | .ask q :: cs, D => D q.arg ∧ Created cs D

/-- Arguments of a call are in range and of the element type `K` of the matrices, and the matrix a call
writes is not one of those it reads, except for `bml_scale`. -/
def fortranLegal (N : Nat) (K : Kind) : Stmt R Q → Prop
  | .call (.setElement f i j _ _) => f = K ∧ (1 ≤ i ∧ i ≤ N) ∧ 1 ≤ j ∧ j ≤ N
  | .call (.setRow f i row _ _) => f = K ∧ (1 ≤ i ∧ i ≤ N) ∧ N ≤ row.size
  | .call (.setDiagonal f d _ _) => f = K ∧ N ≤ d.size
  | .call (.scaleOne f _ _) => f = K
  | .call (.scaleTwo f _ _ _) => f = K
  | .call (.copyNew v w) | .call (.copy v w) | .call (.transpose v w) | .call (.square v w _)
  | .call (.add v w _ _ _) | .call (.addDeprecated _ v _ w _) => v ≠ w
  | .call (.multiply v w u _ _ _) => v ≠ u ∧ w ≠ u
  | .ask (.row f i _) => f = K ∧ 1 ≤ i ∧ i ≤ N
  | .ask (.diagonal f _) => f = K
  | .ask (.dense f _) => f = K
  | _ => True

end Bml.Spec

namespace Bml.Props

open History (Cmd Env Ask denseValue csrValue ellValue denseAsk csrAsk ellAsk)
open Elemental (Kind)
open Fortran.Program (Call Question)

variable {R Q : Type} [CommRing R] [DecidableEq R] [Zero Q]

/-- `p` is a run of the Fortran program `cs`. -/
def FRunOf (N : Nat) (cs : List (Fortran.Program.Stmt R Q)) (p : List (Fortran.Program.Stmt R Q × Env R)) :
    Prop :=
  p.map Prod.fst = cs ∧ ∀ c ∈ p, c.2.Valid N

/-- The C call has the meaning of the Fortran call. -/
theorem fortranCall_eq {N : Nat} {eff : (R → Bool) → R → Bool} {above : Q → R → Bool} {K : Kind}
    {c : Call R Q} (hl : Spec.fortranLegal N K (.call c)) (s : Nat → Spec.Mat R) :
    Spec.fortranCall N (fun t => Spec.keep (eff (above t))) (fun t => Spec.keep (above t)) s c =
      upd s (c.toC above).target (Spec.value N eff s (c.toC above)) := by
  have key : ∀ i i' : Nat, 1 ≤ i → (i' + 1 = i) = (i' = i - 1) := fun i i' h => propext (by omega)
  cases c with
  | setElement f i j x v =>
    obtain ⟨-, h1, h2⟩ := hl
    simp only [Spec.fortranCall, Call.toC, Spec.value, key _ _ h1.1, key _ _ h2.1]
    rfl
  | setRow f i row t v =>
    obtain ⟨-, h1, -⟩ := hl
    cases t <;> simp only [Spec.fortranCall, Call.toC, Spec.value, key _ _ h1.1] <;> rfl
  | setDiagonal f d t v => cases t <;> rfl
  | add v w α β t => cases t <;> rfl
  | addDeprecated α v β w t => cases t <;> rfl
  | square v w t => cases t <;> rfl
  | multiply v w u α β t => cases α <;> cases β <;> cases t <;> rfl
  | _ => rfl

omit [DecidableEq R] in
theorem fortranAnswer_eq {N : Nat} (s : Nat → Spec.Mat R) (q : Question) :
    Spec.fortranAnswer N s q = Spec.answer N s q.toC := by
  cases q <;> rfl

theorem fortranLegal_call {N : Nat} (above : Q → R → Bool) {K : Kind} {c : Call R Q}
    (hl : Spec.fortranLegal N K (.call c)) :
    (c.toC above).Legal N ∧ (∀ f ∈ c.kind, f = K) ∧ ∀ i ∈ c.indices, 1 ≤ i := by
  cases c <;> simp only [Spec.fortranLegal] at hl <;>
    simp only [Call.toC, Cmd.Legal, Call.kind, Call.indices] <;> simp_all <;> omega

omit [CommRing R] [DecidableEq R] [Zero Q] in
theorem fortranLegal_ask {N : Nat} {K : Kind} {q : Question}
    (hl : Spec.fortranLegal (R := R) (Q := Q) N K (.ask q)) :
    q.toC.Legal N ∧ (∀ f ∈ q.kind, f = K) ∧ ∀ i ∈ q.indices, 1 ≤ i := by
  cases q <;> simp only [Spec.fortranLegal] at hl <;>
    simp only [Question.toC, Ask.Legal, Question.kind, Question.indices] <;> simp_all <;> omega

theorem fortranUses_eq (c : Call R Q) : Spec.fortranUses c = c.args := by cases c <;> rfl

theorem fortranCreates_eq (c : Call R Q) : Spec.fortranCreates c = c.frees := by cases c <;> rfl

/-- The variable a call deallocates is the one it changes. -/
theorem frees_target (above : Q → R → Bool) {c : Call R Q} {v : Nat} (e : c.frees = some v) :
    v = (c.toC above).target := by
  cases c <;> simp only [Call.frees, Option.some.injEq, reduceCtorEq] at e <;> exact e.symm

theorem present_ok {τ : Type} {b : Bool} {F : Nat → Option τ} {vs : List Nat} (h : ∀ v ∈ vs, F v ≠ none) :
    Fortran.Program.present b F vs = .ok () := by
  cases vs with
  | nil => rfl
  | cons v vs =>
    have h1 : (F v).isNone = false := by
      have := h v List.mem_cons_self
      cases e : F v <;> simp_all
    have h2 : vs.any (fun w => (F w).isNone) = false := by
      rw [List.any_eq_false]
      intro w hw
      have := h w (List.mem_cons_of_mem _ hw)
      cases e : F w <;> simp_all
    simp [Fortran.Program.present, h1, h2]

theorem wellTyped_ok {K : Kind} {f : Option Kind} {is : List Nat} (h1 : ∀ g ∈ f, g = K)
    (h2 : ∀ i ∈ is, 1 ≤ i) : Fortran.Program.wellTyped K f is = .ok () := by
  have e2 : is.any (fun i => decide (i = 0)) = false := by
    rw [List.any_eq_false]
    intro i hi
    have := h2 i hi
    simp; omega
  have e1 : f.any (fun f => decide (f ≠ K)) = false := by
    cases f with
    | none => rfl
    | some g => simp [h1 g rfl]
  unfold Fortran.Program.wellTyped
  rw [e1, e2]
  rfl

/-- The matrix of a variable that is deallocated and not an argument does not matter. -/
theorem value_freed {N : Nat} {eff : (R → Bool) → R → Bool} {above : Q → R → Bool} {c : Call R Q} {w : Nat}
    (hw : c.frees = some w) (h : ∀ v ∈ c.args, c.frees ≠ some v) (s : Nat → Spec.Mat R) (a : Spec.Mat R) :
    Spec.value N eff (upd s w a) (c.toC above) = Spec.value N eff s (c.toC above) := by
  cases c <;> simp only [Call.frees, Option.some.injEq, reduceCtorEq] at hw <;>
    simp only [Call.args, List.mem_cons, List.mem_nil_iff, or_false, forall_eq, false_implies,
      Call.frees, ne_eq, Option.some.injEq] at h
  · rfl
  · rfl
  · subst hw; simp only [Call.toC, Spec.value]; rw [upd_ne _ _ (Ne.symm h)]
  · subst hw; simp only [Call.toC, Spec.value]; rw [upd_ne _ _ (Ne.symm h)]

/-- A legal call does not deallocate what it needs. -/
theorem frees_other {N : Nat} {K : Kind} {c : Call R Q} (hl : Spec.fortranLegal N K (.call c)) :
    ∀ v ∈ c.args, c.frees ≠ some v := by
  cases c <;> simp_all [Call.args, Call.frees, Spec.fortranLegal] <;> exact fun e => hl e.symm

/-- If the C functions are right for each call and each question, Fortran programs are right. -/
theorem fortran_program {τ : Type} {N : Nat} {eff : (R → Bool) → R → Bool} {above : Q → R → Bool}
    {K : Kind} {z : τ}
    {value : Env R → (Nat → τ) → Cmd R → Res τ}
    {answer : Env R → (Nat → τ) → Ask → Res (List R)} {Rep : τ → Spec.Mat R → Prop}
    {Ok : Cmd R → Prop} (hz : Rep z Spec.zero)
    (hcall : ∀ c ω S s, (∀ v, Rep (S v) (s v)) → c.Legal N → ω.Valid N → Ok c →
      ∃ A, value ω S c = .ok A ∧ Rep A (Spec.value N eff s c))
    (hask : ∀ q ω S s, (∀ v, Rep (S v) (s v)) → q.Legal N → ω.Valid N →
      answer ω S q = .ok (Spec.answer N s q)) :
    ∀ (p : List (Fortran.Program.Stmt R Q × Env R)) (cs : List (Fortran.Program.Stmt R Q))
      (F : Nat → Option τ) (D : Nat → Prop) (s : Nat → Spec.Mat R),
      (∀ v, Rep ((F v).getD z) (s v)) → (∀ v, D v → F v ≠ none) → FRunOf N cs p →
      (∀ c ∈ cs, Spec.fortranLegal N K c) → Spec.Created cs D →
      (∀ c, .call c ∈ cs → Ok (c.toC above)) →
      Fortran.Program.outputs value answer above K z p F =
        .ok (Spec.fortran N (fun t => Spec.keep (eff (above t))) (fun t => Spec.keep (above t)) cs s) := by
  intro p
  induction p with
  | nil =>
    intro cs F D s _ _ hr _ _ _
    obtain ⟨rfl, -⟩ := hr
    rfl
  | cons c p ih =>
    intro cs F D s h hD hr hl hc ho
    obtain ⟨c, ω⟩ := c
    obtain ⟨rfl, hv⟩ := hr
    have hω := hv _ List.mem_cons_self
    have hrest : FRunOf N (p.map Prod.fst) p := ⟨rfl, fun c hc => hv c (List.mem_cons_of_mem _ hc)⟩
    have hl' : ∀ c ∈ p.map Prod.fst, Spec.fortranLegal N K c :=
      fun c hc => hl c (List.mem_cons_of_mem _ hc)
    have ho' : ∀ c, .call c ∈ p.map Prod.fst → Ok (c.toC above) :=
      fun c hc => ho c (List.mem_cons_of_mem _ hc)
    cases c with
    | call c =>
      have hlc := hl _ List.mem_cons_self
      obtain ⟨g1, g2, g3⟩ := fortranLegal_call above hlc
      obtain ⟨hargs, hc'⟩ := hc
      rw [fortranUses_eq] at hargs
      have hfr := frees_other hlc
      -- the state after the destination has been deallocated
      obtain ⟨F', hF', h', hD', hval⟩ : ∃ F' : Nat → Option τ,
          Fortran.Program.release F c.frees = F' ∧
          (∃ s', (∀ v, Rep ((F' v).getD z) (s' v)) ∧
            (∀ v, v ≠ (c.toC above).target → s' v = s v) ∧
            Spec.value N eff s' (c.toC above) = Spec.value N eff s (c.toC above)) ∧
          (∀ v ∈ c.args, F' v ≠ none) ∧ (∀ v, v ≠ (c.toC above).target → F' v = F v) := by
        cases e : c.frees with
        | none => exact ⟨F, rfl, ⟨s, h, fun _ _ => rfl, rfl⟩, fun v hv => hD v (hargs v hv),
            fun _ _ => rfl⟩
        | some w =>
          have hw : w = (c.toC above).target := frees_target above e
          refine ⟨upd F w none, rfl, ⟨upd s w Spec.zero, fun v => ?_, fun v hv => ?_,
            value_freed e hfr s _⟩, fun v hv => ?_, fun v hv => ?_⟩
          · by_cases hvw : v = w
            · subst hvw; rw [upd_same, upd_same]; exact hz
            · rw [upd_ne _ _ hvw, upd_ne _ _ hvw]; exact h v
          · rw [upd_ne _ _ (hw ▸ hv)]
          · have : v ≠ w := fun e' => hfr v hv (by rw [e, e'])
            rw [upd_ne _ _ this]; exact hD v (hargs v hv)
          · rw [upd_ne _ _ (hw ▸ hv)]
      obtain ⟨s', hs', hss, hsv⟩ := h'
      obtain ⟨A, e, hA⟩ := hcall (c.toC above) ω (fun v => (F' v).getD z) s' hs' g1 hω
        (ho _ List.mem_cons_self)
      rw [hsv] at hA
      have := ih _ (upd F' (c.toC above).target (some A))
        (fun v => Spec.fortranCreates c = some v ∨ D v)
        (upd s (c.toC above).target (Spec.value N eff s (c.toC above))) (fun v => by
          by_cases hv : v = (c.toC above).target
          · subst hv; rw [upd_same, upd_same]; exact hA
          · rw [upd_ne _ _ hv, upd_ne _ _ hv, ← hss v hv]; exact hs' v) (fun v hv => by
          by_cases hvt : v = (c.toC above).target
          · subst hvt; rw [upd_same]; simp
          · rw [upd_ne _ _ hvt, hval v hvt]
            refine hD v (hv.resolve_left fun e => hvt ?_)
            rw [fortranCreates_eq] at e
            exact frees_target above e) hrest hl' hc' ho'
      simp only [Fortran.Program.outputs, Fortran.Program.call, List.map_cons, Spec.fortran]
      rw [fortranCall_eq hlc]
      rw [hF', present_ok hD', Res.bind_ok, wellTyped_ok g2 g3, Res.bind_ok, e, Res.bind_ok]
      exact this
    | ask q =>
      obtain ⟨g1, g2, g3⟩ := fortranLegal_ask (hl _ List.mem_cons_self)
      obtain ⟨hq, hc'⟩ := hc
      have h1 := hask q.toC ω (fun v => (F v).getD z) s h g1 hω
      have h2 := ih _ F D s h hD hrest hl' hc' ho'
      simp only [Fortran.Program.outputs, Fortran.Program.ask, List.map_cons, Spec.fortran]
      rw [fortranAnswer_eq]
      rw [present_ok (fun v hv => by
        rw [List.mem_singleton] at hv; subst hv; exact hD _ hq), Res.bind_ok, wellTyped_ok g2 g3,
        Res.bind_ok, h1, Res.bind_ok, h2]
      rfl

/-! ## C80 -/

/-- No variable holds a matrix. -/
def noMatrices {τ : Type} : Nat → Option τ := fun _ => none

/-- **C80**, dense matrices. -/
theorem C80_dense {N : Nat} (hN : 0 < N) (above : Q → R → Bool) (K : Kind)
    {cs : List (Fortran.Program.Stmt R Q)} {p : List (Fortran.Program.Stmt R Q × Env R)}
    (hp : FRunOf N cs p) (hl : ∀ c ∈ cs, Spec.fortranLegal N K c)
    (hc : Spec.Created cs fun _ => False) :
    Fortran.Program.outputs (denseValue N) denseAsk above K (Dense.zeroMatrix N) p noMatrices =
      .ok (Spec.fortran N (fun _ x => x) (fun t => Spec.keep (above t)) cs fun _ => Spec.zero) := by
  have := fortran_program (Rep := fun A a => Dense.Represents A N a) (Ok := fun _ => True)
    (above := above) (K := K) (C32_dense_zero N)
    (fun c ω S s h h1 h2 _ => dense_step hN c ω S s h h1 h2) dense_ask p cs noMatrices _ _
    (fun _ => C32_dense_zero N) (fun _ h => h.elim) hp hl hc fun _ _ => trivial
  rw [this]
  have e : (fun (_ : Q) => Spec.keep (fun _ : R => true)) = fun _ x => x := by
    funext _ x; simp [Spec.keep]
  rw [e]

/-- **C80**, CSR matrices with rows as wide as the matrix. -/
theorem C80_csr {N M : Nat} (hM : N ≤ M ∨ N ≤ 10) (hN : N ≤ 174762) (above : Q → R → Bool) (K : Kind)
    {cs : List (Fortran.Program.Stmt R Q)} {p : List (Fortran.Program.Stmt R Q × Env R)}
    (hp : FRunOf N cs p) (hl : ∀ c ∈ cs, Spec.fortranLegal N K c)
    (hc : Spec.Created cs fun _ => False) :
    Fortran.Program.outputs (csrValue N M) csrAsk above K (Csr.newZero N M) p noMatrices =
      .ok (Spec.fortran N (fun t => Spec.keep (above t)) (fun t => Spec.keep (above t)) cs fun _ => Spec.zero) := by
  have hz : WideRows N M (Csr.newZero N M : Csr R) ∧ (Csr.newZero N M : Csr R).Represents N Spec.zero :=
    ⟨⟨rfl, fun _ _ => show N ≤ CsrRow.rowSpace M by
      unfold CsrRow.rowSpace CsrRow.initRowSpace; split <;> omega⟩, C32_csr_zero N M⟩
  exact fortran_program (Rep := fun A a => WideRows N M A ∧ Csr.Represents A N a) (Ok := fun _ => True) hz
    (fun c ω S s h h1 h2 _ => csr_wide_step hM hN c ω S s h h1 h2)
    (fun q ω S s h => csr_ask q ω S s fun v => (h v).2) p cs noMatrices _ _
    (fun _ => hz) (fun _ h => h.elim) hp hl hc fun _ _ => trivial

/-- **C80**, ELLPACK matrices with rows as wide as the matrix, programs without
`bml_set_element`. -/
theorem C80_ellpack {N M : Nat} (hM : 0 < M) (hNM : N ≤ M) (above : Q → R → Bool) (K : Kind)
    {cs : List (Fortran.Program.Stmt R Q)} {p : List (Fortran.Program.Stmt R Q × Env R)}
    (hp : FRunOf N cs p) (hl : ∀ c ∈ cs, Spec.fortranLegal N K c)
    (hc : Spec.Created cs fun _ => False) (hn : ∀ c, .call c ∈ cs → NotSet (c.toC above)) :
    Fortran.Program.outputs (ellValue N M) ellAsk above K (Ell.zeroMatrix N M) p noMatrices =
      .ok (Spec.fortran N (fun t => Spec.keep (above t)) (fun t => Spec.keep (above t)) cs fun _ => Spec.zero) :=
  fortran_program (Rep := fun A a => A.M = M ∧ Ell.Represents A N a) (Ok := NotSet)
    ⟨rfl, Ell.represents_iff.2 (Ell.zero_rep N M)⟩
    (fun c ω S s h h1 h2 h3 => ell_step hM c ω S s h h1 h2 (ellFit_of_wide hNM h h3))
    (fun q ω S s h => ell_ask q ω S s fun v => (h v).2) p cs noMatrices _ _
    (fun _ => ⟨rfl, Ell.represents_iff.2 (Ell.zero_rep N M)⟩) (fun _ h => h.elim) hp hl hc hn

/-! ## What goes wrong -/

section wrong

variable {τ : Type} (value : Env R → (Nat → τ) → Cmd R → Res τ) (above : Q → R → Bool) (K : Kind) (z : τ)
  (ω : Env R) (F : Nat → Option τ)

omit [DecidableEq R] in
/-- **C80 fails** for `bml_transpose(a, a)`: the matrix is deallocated before it is transposed, and the
library stops with an error. -/
theorem C80_transpose_itself (v : Nat) :
    Fortran.Program.call value above K z ω F (.transpose v v) = .error := by
  simp only [Fortran.Program.call, Call.frees, Call.args, Fortran.Program.present,
    Fortran.Program.release, upd_same]
  rfl

omit [DecidableEq R] in
/-- **C80 fails** for `bml_copy_new(a, a)` in the same way. -/
theorem C80_copy_itself (v : Nat) :
    Fortran.Program.call value above K z ω F (.copyNew v v) = .error := by
  simp only [Fortran.Program.call, Call.frees, Call.args, Fortran.Program.present,
    Fortran.Program.release, upd_same]
  rfl

omit [DecidableEq R] in
/-- **C80 fails** for a factor of another precision: `bml_scale` with a factor that has not the element
type of the matrix is undefined. -/
theorem C80_scale_kind {f : Kind} (hf : f ≠ K) (c : R) {v : Nat} (hv : F v ≠ none) :
    Fortran.Program.call value above K z ω F (.scaleOne f c v) = .ub := by
  simp only [Fortran.Program.call, Call.frees, Call.args]
  rw [present_ok (by simpa [Fortran.Program.release] using hv), Res.bind_ok]
  simp only [Fortran.Program.wellTyped, Call.kind, Option.any_some, decide_eq_true hf, Bool.true_or,
    if_true]
  rfl

omit [DecidableEq R] in
/-- The first matrix argument of a call has not been created: the library stops with an error. -/
theorem C80_first_missing {c : Call R Q} {v : Nat} {vs : List Nat} (hc : c.args = v :: vs)
    (hv : F v = none) : Fortran.Program.call value above K z ω F c = .error := by
  simp only [Fortran.Program.call, hc]
  have : ∀ G : Nat → Option τ, G v = none → Fortran.Program.present c.checked G (v :: vs) = .error :=
    fun G h => by simp [Fortran.Program.present, h]
  cases e : c.frees with
  | none => rw [this _ (show Fortran.Program.release F none v = none from hv)]; rfl
  | some w =>
    rw [this _ (show Fortran.Program.release F (some w) v = none by
                   simp only [Fortran.Program.release]
                   by_cases h : v = w
                   · subst h; exact upd_same ..
                   · rw [upd_ne _ _ h]; exact hv)]
    rfl

omit [DecidableEq R] in
/-- **C80 fails** for a second matrix argument that has not been created: `bml_add` dereferences a null
pointer instead of reporting an error. -/
theorem C80_second_missing (v w : Nat) (α β : R) (t : Option Q) (hv : F v ≠ none) (hw : F w = none) :
    Fortran.Program.call value above K z ω F (.add v w α β t) = .ub := by
  have : (F v).isNone = false := by cases e : F v <;> simp_all
  simp [Fortran.Program.call, Call.frees, Call.args, Fortran.Program.present,
    Fortran.Program.release, this, hw, Call.checked]

end wrong

/-! ## Examples -/

/-- The test `|x| > t` for integers. -/
def aboveInt (t : Nat) (x : Int) : Bool := decide (t < x.natAbs)

/-- A Fortran program: arguments left out, destinations that already exist. -/
def exFStmts : List (Fortran.Program.Stmt Int Nat) :=
  [.call (.identity 0), .call (.setRow .doubleReal 2 ⟨3, fun j => 2 * j - 2⟩ none 0),
    .ask (.row .doubleReal 2 0), .call (.zero 1), .call (.transpose 0 1), .call (.copyNew 0 2),
    .call (.multiply 0 1 2 none none none), .ask (.trace 2), .call (.multiply 0 1 2 (some 2) (some 1) (some 3)),
    .call (.threshold 2 4), .call (.scaleTwo .doubleReal 3 2 1), .call (.add 1 0 1 (-3) none),
    .ask (.sumSquares 1), .ask (.dense .doubleReal 1)]

theorem exFStmts_legal : ∀ c ∈ exFStmts, Spec.fortranLegal 3 .doubleReal c := by
  intro c hc
  fin_cases hc <;> simp [Spec.fortranLegal]

theorem exFStmts_created : Spec.Created exFStmts fun _ => False := by
  simp [Spec.Created, exFStmts, Spec.fortranUses, Spec.fortranCreates, Question.arg]

theorem exFStmts_run (ω : Env Int) (h : ω.Valid 3) :
    FRunOf 3 exFStmts (exFStmts.map fun c => (c, ω)) :=
  ⟨by simp [exFStmts], fun c hc => by obtain ⟨d, -, rfl⟩ := List.mem_map.1 hc; exact h⟩

example : Fortran.Program.outputs (ellValue 3 4) ellAsk aboveInt .doubleReal (Ell.zeroMatrix 3 4)
    (exFStmts.map fun c => (c, exEnv 3)) noMatrices =
      .ok (Spec.fortran 3 (fun t => Spec.keep (aboveInt t)) (fun t => Spec.keep (aboveInt t)) exFStmts
        fun _ => Spec.zero) :=
  C80_ellpack (by omega) (by omega) aboveInt .doubleReal (exFStmts_run _ (exEnv_valid 3)) exFStmts_legal
    exFStmts_created (by
      intro c hc
      simp only [exFStmts, List.mem_cons, Fortran.Program.Stmt.call.injEq, List.mem_nil_iff, or_false,
        reduceCtorEq, false_or] at hc
      rcases hc with rfl | rfl | rfl | rfl | rfl | rfl | rfl | rfl | rfl | rfl <;> trivial)

/-- What the program gets, from the specification. -/
example : Spec.fortran 3 (fun t => Spec.keep (aboveInt t)) (fun t => Spec.keep (aboveInt t)) exFStmts
    (fun _ => Spec.zero) =
    [[-2, 0, 2], [10], [5274], [-3, 6, 0, 0, 72, 0, 0, -6, -3]] := by decide +kernel

example : Fortran.Program.outputs (denseValue 3) denseAsk aboveInt .doubleReal (Dense.zeroMatrix 3)
    (exFStmts.map fun c => (c, exEnv 3)) noMatrices =
      .ok (Spec.fortran 3 (fun _ x => x) (fun t => Spec.keep (aboveInt t)) exFStmts fun _ => Spec.zero) :=
  C80_dense (by omega) aboveInt .doubleReal (exFStmts_run _ (exEnv_valid 3)) exFStmts_legal
    exFStmts_created

example : Fortran.Program.outputs (csrValue 3 1) csrAsk aboveInt .doubleReal (Csr.newZero 3 1)
    (exFStmts.map fun c => (c, exEnv 3)) noMatrices =
      .ok (Spec.fortran 3 (fun t => Spec.keep (aboveInt t)) (fun t => Spec.keep (aboveInt t)) exFStmts
        fun _ => Spec.zero) :=
  C80_csr (.inr (by omega)) (by omega) aboveInt .doubleReal (exFStmts_run _ (exEnv_valid 3))
    exFStmts_legal exFStmts_created

/-- A program with a transpose of a matrix into itself gets no answers. -/
example : Fortran.Program.outputs (denseValue 3) denseAsk aboveInt .doubleReal (Dense.zeroMatrix 3)
    ([.call (.identity 0), .call (.transpose 0 0), .ask (.trace 0)].map fun c => (c, exEnv 3))
      noMatrices = .error := by decide +kernel

end Bml.Props
