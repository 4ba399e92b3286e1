import Verif.Common.Program

/-!
# Property C79: a program gets the same answers in every format

`Spec.outputs` runs a program on mathematical matrices.
-/

namespace Bml.Spec

open History

variable {R : Type} [CommRing R] [DecidableEq R]

/-- The answer to a question about the matrices `s` of size `N`. -/
def answer (N : Nat) (s : Nat → Mat R) : Ask → List R
  | .element i j v => [s v i j]
  | .row i v => (List.range N).map fun j => s v i j
  | .diagonal v => (List.range N).map fun i => s v i i
  | .trace v => [tr N (s v)]
  | .sumSquares v => [total N N fun i j => s v i j * s v i j]
  | .dense .rowMajor v => (List.range (N * N)).map fun k => s v (k / N) (k % N)
  | .dense .colMajor v => (List.range (N * N)).map fun k => s v (k % N) (k / N)

/-- The answers to the questions of a program.  `eff t` is the threshold test the format applies in
arithmetic functions. -/
def outputs (N : Nat) (eff : (R → Bool) → R → Bool) : List (Stmt R) → (Nat → Mat R) → List (List R)
  | [], _ => []
  | .call c :: cs, s => outputs N eff cs (upd s c.target (value N eff s c))
  | .ask q :: cs, s => answer N s q :: outputs N eff cs s

end Bml.Spec

namespace Bml.Props

open History

variable {R : Type} [CommRing R] [DecidableEq R]

/-- A statement with arguments in range. -/
def Stmt.Legal (N : Nat) : Stmt R → Prop
  | .call c => c.Legal N
  | .ask q => q.Legal N

/-- `p` is a run of the program `cs`: the same statements, with environments that play by the
rules. -/
def RunOf (N : Nat) (cs : List (Stmt R)) (p : List (Stmt R × Env R)) : Prop :=
  p.map Prod.fst = cs ∧ ∀ c ∈ p, c.2.Valid N

theorem elems_eq {a : Arr R} {n : Nat} {f : Nat → R} (hs : a.size = n) (h : ∀ k, k < n → a.get k = f k) :
    elems a = (List.range n).map f := by
  unfold elems
  rw [hs]
  exact List.map_congr_left fun k hk => h k (List.mem_range.1 hk)

theorem elems_dense {D : Arr R} {N : Nat} {a : Spec.Mat R} {o : Order} {s : Nat → Spec.Mat R} {v : Nat}
    (ha : a = s v) (hs : D.size = N * N)
    (h : ∀ i j, i < N → j < N → D.get (o.addr i j N) = a i j) :
    elems D = Spec.answer N s (.dense o v) := by
  subst ha
  have key : ∀ k, k < N * N → k / N < N ∧ k % N < N ∧ (k / N) * N + k % N = k := fun k hk =>
    ⟨Nat.div_lt_of_lt_mul hk, Nat.mod_lt _ (Nat.pos_of_ne_zero fun e => by subst e; omega),
      Nat.div_add_mod' k N⟩
  cases o with
  | rowMajor =>
    refine elems_eq hs fun k hk => ?_
    obtain ⟨h1, h2, h3⟩ := key k hk
    have := h _ _ h1 h2
    rwa [show Order.addr .rowMajor (k / N) (k % N) N = k from h3] at this
  | colMajor =>
    refine elems_eq hs fun k hk => ?_
    obtain ⟨h1, h2, h3⟩ := key k hk
    have := h _ _ h2 h1
    rwa [show Order.addr .colMajor (k % N) (k / N) N = k by
      simp only [Order.addr, COLMAJOR]; omega] at this

/-- If each call and each answer is right, all programs are. -/
theorem program {τ : Type} {N : Nat} {eff : (R → Bool) → R → Bool}
    {value : Env R → (Nat → τ) → Cmd R → Res τ}
    {ask : Env R → (Nat → τ) → Ask → Res (List R)} {Rep : τ → Spec.Mat R → Prop}
    {Ok : Cmd R → Prop}
    (hcall : ∀ c ω S s, (∀ v, Rep (S v) (s v)) → c.Legal N → ω.Valid N → Ok c →
      ∃ A, value ω S c = .ok A ∧ Rep A (Spec.value N eff s c))
    (hask : ∀ q ω S s, (∀ v, Rep (S v) (s v)) → q.Legal N → ω.Valid N →
      ask ω S q = .ok (Spec.answer N s q)) :
    ∀ (p : List (Stmt R × Env R)) (cs : List (Stmt R)) (S : Nat → τ) (s : Nat → Spec.Mat R),
      (∀ v, Rep (S v) (s v)) → RunOf N cs p → (∀ c ∈ cs, Stmt.Legal N c) →
      (∀ c, .call c ∈ cs → Ok c) →
      History.outputs value ask p S = .ok (Spec.outputs N eff cs s) := by
  intro p
  induction p with
  | nil =>
    intro cs S s h hr hl ho
    obtain ⟨rfl, -⟩ := hr
    rfl
  | cons c p ih =>
    intro cs S s h hr hl ho
    obtain ⟨c, ω⟩ := c
    obtain ⟨rfl, hv⟩ := hr
    have hω := hv _ List.mem_cons_self
    have hrest : RunOf N (p.map Prod.fst) p := ⟨rfl, fun c hc => hv c (List.mem_cons_of_mem _ hc)⟩
    have hl' : ∀ c ∈ p.map Prod.fst, Stmt.Legal N c := fun c hc => hl c (List.mem_cons_of_mem _ hc)
    have ho' : ∀ c, .call c ∈ p.map Prod.fst → Ok c := fun c hc => ho c (List.mem_cons_of_mem _ hc)
    cases c with
    | call c =>
      obtain ⟨A, e, hA⟩ := hcall c ω S s h (hl _ List.mem_cons_self) hω (ho _ List.mem_cons_self)
      have := ih _ (upd S c.target A) (upd s c.target (Spec.value N eff s c)) (fun v => by
        by_cases hv : v = c.target
        · subst hv; rw [upd_same, upd_same]; exact hA
        · rw [upd_ne _ _ hv, upd_ne _ _ hv]; exact h v) hrest hl' ho'
      show (value ω S c >>= fun A => History.outputs value ask p (upd S c.target A)) = _
      rw [e, Res.bind_ok, this]
      rfl
    | ask q =>
      have h1 := hask q ω S s h (hl _ List.mem_cons_self) hω
      have h2 := ih _ S s h hrest hl' ho'
      show (ask ω S q >>= fun x => History.outputs value ask p S >>= fun xs => pure (x :: xs)) = _
      rw [h1, Res.bind_ok, h2]
      rfl

/-! ## The answers of the three formats -/

theorem dense_ask {N : Nat} (q : Ask) (ω : Env R) (S : Nat → Dense R) (s : Nat → Spec.Mat R)
    (h : ∀ v, (S v).Represents N (s v)) (hl : q.Legal N) (hv : ω.Valid N) :
    denseAsk ω S q = .ok (Spec.answer N s q) := by
  cases q with
  | element i j v => simp only [denseAsk]; rw [(h v).get i j hl.1 hl.2]; rfl
  | row i v =>
    obtain ⟨r, e, h1, h2⟩ :=
      Res.wp_exists (Dense.wp_getRow (E := False) (Dense.represents_iff.1 (h v)) hl ω.vals)
    simp only [denseAsk]; rw [e, Res.bind_ok, elems_eq h1 h2]; rfl
  | diagonal v =>
    obtain ⟨r, e, h1, h2⟩ :=
      Res.wp_exists (Dense.wp_getDiagonal (E := False) (Dense.represents_iff.1 (h v)) ω.vals)
    simp only [denseAsk]; rw [e, Res.bind_ok, elems_eq h1 h2]; rfl
  | trace v => simp only [denseAsk]; rw [C20_dense_trace (h v) hv.rows]; rfl
  | sumSquares v => simp only [denseAsk]; rw [C21_dense_sum_squares (h v) hv.elems]; rfl
  | dense o v =>
    obtain ⟨D, e, h1, h2⟩ :=
      Res.wp_exists (Dense.wp_export (E := False) (Dense.represents_iff.1 (h v)) o ω.vals)
    simp only [denseAsk]; rw [e, Res.bind_ok, elems_dense rfl h1 h2]; rfl

theorem csr_ask {N : Nat} (q : Ask) (ω : Env R) (S : Nat → Csr R) (s : Nat → Spec.Mat R)
    (h : ∀ v, (S v).Represents N (s v)) (hl : q.Legal N) (hv : ω.Valid N) :
    csrAsk ω S q = .ok (Spec.answer N s q) := by
  cases q with
  | element i j v => simp only [csrAsk]; rw [(h v).get i j hl.1 hl.2]; rfl
  | row i v =>
    obtain ⟨r, e, h1, h2⟩ := C04_csr_get_row (h v) hl
    simp only [csrAsk]; rw [e, Res.bind_ok, elems_eq h1 h2]; rfl
  | diagonal v =>
    obtain ⟨r, e, h1, h2⟩ := C05_csr_get_diagonal (h v)
    simp only [csrAsk]; rw [e, Res.bind_ok, elems_eq h1 h2]; rfl
  | trace v => simp only [csrAsk]; rw [C20_csr_trace (h v) hv.rows]; rfl
  | sumSquares v => simp only [csrAsk]; rw [C21_csr_sum_squares (h v) hv.rows]; rfl
  | dense o v =>
    obtain ⟨D, e, h1, h2⟩ :=
      Res.wp_exists (Csr.wp_exportDense (E := False) (Csr.represents_iff.1 (h v)) o hv.rows)
    simp only [csrAsk]; rw [e, Res.bind_ok, elems_dense rfl h1 h2]; rfl

theorem ell_ask {N : Nat} (q : Ask) (ω : Env R) (S : Nat → Ell R) (s : Nat → Spec.Mat R)
    (h : ∀ v, (S v).Represents N (s v)) (hl : q.Legal N) (hv : ω.Valid N) :
    ellAsk ω S q = .ok (Spec.answer N s q) := by
  cases q with
  | element i j v => simp only [ellAsk]; rw [(h v).get i j hl.1 hl.2]; rfl
  | row i v =>
    obtain ⟨r, e, h1, h2⟩ := C04_get_row (h v) hl
    simp only [ellAsk]; rw [e, Res.bind_ok, elems_eq h1 h2]; rfl
  | diagonal v =>
    obtain ⟨r, e, h1, h2⟩ := C05_get_diagonal (h v)
    simp only [ellAsk]; rw [e, Res.bind_ok, elems_eq h1 h2]; rfl
  | trace v => simp only [ellAsk]; rw [C20_trace (h v) hv.rows]; rfl
  | sumSquares v => simp only [ellAsk]; rw [C21_sum_squares (h v) hv.rows]; rfl
  | dense o v =>
    obtain ⟨D, e, h1, h2⟩ := C06_export (h v) o hv.rows
    simp only [ellAsk]; rw [e, Res.bind_ok, elems_dense rfl h1 h2]; rfl

/-! ## C79 -/

/-- **C79**, dense: every run of every program, of any length, gives the answers of the
specification. -/
theorem C79_dense {N : Nat} (hN : 0 < N) {cs : List (Stmt R)} {p : List (Stmt R × Env R)}
    (hp : RunOf N cs p) (hl : ∀ c ∈ cs, Stmt.Legal N c) {S : Nat → Dense R} {s : Nat → Spec.Mat R}
    (hS : ∀ v, (S v).Represents N (s v)) :
    outputs (denseValue N) denseAsk p S = .ok (Spec.outputs N (fun _ _ => true) cs s) :=
  program (Rep := fun A a => Dense.Represents A N a) (Ok := fun _ => True)
    (fun c ω S s h h1 h2 _ => dense_step hN c ω S s h h1 h2) dense_ask p cs S s hS hp hl
    fun _ _ => trivial

/-- **C79**, CSR with rows as wide as the matrix. -/
theorem C79_csr {N M : Nat} (hM : N ≤ M ∨ N ≤ 10) (hN : N ≤ 174762) {cs : List (Stmt R)}
    {p : List (Stmt R × Env R)} (hp : RunOf N cs p) (hl : ∀ c ∈ cs, Stmt.Legal N c)
    {S : Nat → Csr R} {s : Nat → Spec.Mat R}
    (hS : ∀ v, WideRows N M (S v) ∧ (S v).Represents N (s v)) :
    outputs (csrValue N M) csrAsk p S = .ok (Spec.outputs N (fun t => t) cs s) :=
  program (Rep := fun A a => WideRows N M A ∧ Csr.Represents A N a) (Ok := fun _ => True)
    (fun c ω S s h h1 h2 _ => csr_wide_step hM hN c ω S s h h1 h2)
    (fun q ω S s h => csr_ask q ω S s fun v => (h v).2) p cs S s hS hp hl fun _ _ => trivial

/-- **C79**, ELLPACK with rows as wide as the matrix, programs without `bml_set_element`. -/
theorem C79_ellpack {N M : Nat} (hM : 0 < M) (hNM : N ≤ M) {cs : List (Stmt R)}
    {p : List (Stmt R × Env R)} (hp : RunOf N cs p) (hl : ∀ c ∈ cs, Stmt.Legal N c)
    (hn : ∀ c, .call c ∈ cs → NotSet c) {S : Nat → Ell R} {s : Nat → Spec.Mat R}
    (hS : ∀ v, (S v).M = M ∧ (S v).Represents N (s v)) :
    outputs (ellValue N M) ellAsk p S = .ok (Spec.outputs N (fun t => t) cs s) :=
  program (Rep := fun A a => A.M = M ∧ Ell.Represents A N a) (Ok := NotSet)
    (fun c ω S s h h1 h2 h3 => ell_step hM c ω S s h h1 h2 (ellFit_of_wide hNM h h3))
    (fun q ω S s h => ell_ask q ω S s fun v => (h v).2) p cs S s hS hp hl hn

/-- The thresholds of a call drop nothing but zeros.  `bml_threshold` may drop anything. -/
def DropsZeros : Cmd R → Prop
  | .setRow t _ _ _ | .setDiagonal t _ _ | .add t _ _ _ _ | .addIdentity t _ _
  | .scaleAddIdentity t _ _ _ | .multiply t _ _ _ _ _ | .square t _ _ => ∀ x, t x = false → x = 0
  | _ => True

omit [DecidableEq R] in
theorem keep_zeros {t : R → Bool} (h : ∀ x, t x = false → x = 0) (x : R) : Spec.keep t x = x := by
  unfold Spec.keep
  cases e : t x with
  | true => simp
  | false => simp [h x e]

/-- Thresholds that drop only zeros do not matter. -/
theorem outputs_eff {N : Nat} {cs : List (Stmt R)} (h : ∀ c, .call c ∈ cs → DropsZeros c)
    (s : Nat → Spec.Mat R) :
    Spec.outputs N (fun _ _ => true) cs s = Spec.outputs N (fun t => t) cs s := by
  have hk : ∀ x : R, Spec.keep (fun _ => true) x = x := fun x => by simp [Spec.keep]
  have hko : ∀ a : Spec.Mat R, Spec.keepOff (fun _ => true) a = a := fun a => by
    funext i j; simp [Spec.keepOff, Spec.keep]
  have hkz : ∀ {t : R → Bool} (_ : ∀ x, t x = false → x = 0) (a : Spec.Mat R), Spec.keepOff t a = a :=
    fun ht a => by funext i j; simp [Spec.keepOff, keep_zeros ht]
  induction cs generalizing s with
  | nil => rfl
  | cons c cs ih =>
    have ih' := ih (fun c hc => h c (List.mem_cons_of_mem _ hc))
    cases c with
    | ask q => simp only [Spec.outputs]; rw [ih']
    | call c =>
      have hc := h c List.mem_cons_self
      simp only [Spec.outputs]
      rw [ih']
      congr 2
      cases c <;> first
        | rfl
        | (simp only [Spec.value, hk, hko, keep_zeros hc, hkz hc])

/-- **C79**, all formats: a program whose arithmetic thresholds drop only zeros gets the same answers
from dense, CSR and ELLPACK matrices, on every schedule of the threads and whatever the fresh memory
contains. -/
theorem C79_formats_agree {N M M' : Nat} (hN : 0 < N) (hM : N ≤ M ∨ N ≤ 10) (hN' : N ≤ 174762)
    (hM' : N ≤ M') {cs : List (Stmt R)} (hl : ∀ c ∈ cs, Stmt.Legal N c)
    (hz : ∀ c, .call c ∈ cs → DropsZeros c ∧ NotSet c) {p p' p'' : List (Stmt R × Env R)}
    (hp : RunOf N cs p) (hp' : RunOf N cs p') (hp'' : RunOf N cs p'') {S : Nat → Dense R}
    {S' : Nat → Csr R} {S'' : Nat → Ell R} {s : Nat → Spec.Mat R}
    (hS : ∀ v, (S v).Represents N (s v))
    (hS' : ∀ v, WideRows N M (S' v) ∧ (S' v).Represents N (s v))
    (hS'' : ∀ v, (S'' v).M = M' ∧ (S'' v).Represents N (s v)) :
    ∃ out, outputs (denseValue N) denseAsk p S = .ok out ∧
      outputs (csrValue N M) csrAsk p' S' = .ok out ∧
      outputs (ellValue N M') ellAsk p'' S'' = .ok out := by
  have e := outputs_eff (N := N) (fun c hc => (hz c hc).1) s
  refine ⟨_, C79_dense hN hp hl hS, ?_, ?_⟩
  · rw [e]; exact C79_csr hM hN' hp' hl hS'
  · rw [e]; exact C79_ellpack (by omega) hM' hp'' hl (fun c hc => (hz c hc).2) hS''

/-- **C79**, dense and CSR, with `bml_set_element`. -/
theorem C79_dense_csr_agree {N M : Nat} (hN : 0 < N) (hM : N ≤ M ∨ N ≤ 10) (hN' : N ≤ 174762)
    {cs : List (Stmt R)} (hl : ∀ c ∈ cs, Stmt.Legal N c)
    (hz : ∀ c, .call c ∈ cs → DropsZeros c) {p p' : List (Stmt R × Env R)}
    (hp : RunOf N cs p) (hp' : RunOf N cs p') {S : Nat → Dense R} {S' : Nat → Csr R}
    {s : Nat → Spec.Mat R} (hS : ∀ v, (S v).Represents N (s v))
    (hS' : ∀ v, WideRows N M (S' v) ∧ (S' v).Represents N (s v)) :
    ∃ out, outputs (denseValue N) denseAsk p S = .ok out ∧
      outputs (csrValue N M) csrAsk p' S' = .ok out := by
  refine ⟨_, C79_dense hN hp hl hS, ?_⟩
  rw [outputs_eff hz s]
  exact C79_csr hM hN' hp' hl hS'

/-! ## Examples -/

/-- The test "not zero". -/
def nzInt (x : Int) : Bool := decide (x ≠ 0)

/-- A program that builds two matrices, computes with them and looks at the results. -/
def exStmts : List (Stmt Int) :=
  [.call (.identity 0), .call (.setRow nzInt 1 ⟨3, fun j => 2 * j - 2⟩ 0), .ask (.row 1 0),
    .call (.transposeNew 0 1), .call (.multiply nzInt 2 1 0 1 2), .ask (.trace 2),
    .call (.threshold exBig 2), .call (.add nzInt 1 (-3) 0 2), .ask (.sumSquares 2),
    .ask (.dense .colMajor 2)]

theorem exStmts_legal : ∀ c ∈ exStmts, Stmt.Legal 3 c := by
  intro c hc
  fin_cases hc <;> simp [Stmt.Legal, Cmd.Legal, Ask.Legal]

theorem exStmts_zeros : ∀ c, .call c ∈ exStmts → DropsZeros c ∧ NotSet c := by
  intro c hc
  have : ∀ x : Int, nzInt x = false → x = 0 := fun x h => by simpa [nzInt] using h
  simp only [exStmts, List.mem_cons, Stmt.call.injEq, List.mem_nil_iff, or_false, reduceCtorEq,
    false_or] at hc
  rcases hc with rfl | rfl | rfl | rfl | rfl | rfl <;> exact ⟨by first | exact this | trivial, trivial⟩

theorem exStmts_run (ω : Env Int) (h : ω.Valid 3) : RunOf 3 exStmts (exStmts.map fun c => (c, ω)) :=
  ⟨by simp [exStmts], fun c hc => by obtain ⟨d, -, rfl⟩ := List.mem_map.1 hc; exact h⟩

/-- What the program gets, from the specification. -/
example : Spec.outputs 3 (fun t => t) exStmts (fun _ => Spec.zero) =
    [[-2, 0, 2], [20], [298], [-1, 2, 0, -4, 16, 4, 0, -2, -1]] := by decide +kernel

example : ∃ out, outputs (denseValue 3) denseAsk (exStmts.map fun c => (c, exEnv 3))
      (fun _ => Dense.zeroMatrix 3) = .ok out ∧
    outputs (csrValue 3 1) csrAsk (exStmts.map fun c => (c, exEnv 3)) (fun _ => Csr.newZero 3 1) =
      .ok out ∧
    outputs (ellValue 3 4) ellAsk (exStmts.map fun c => (c, exEnv 3)) (fun _ => Ell.zeroMatrix 3 4) =
      .ok out :=
  C79_formats_agree (by omega) (.inr (by omega)) (by omega) (by omega) exStmts_legal exStmts_zeros
    (exStmts_run _ (exEnv_valid 3)) (exStmts_run _ (exEnv_valid 3)) (exStmts_run _ (exEnv_valid 3))
    (fun _ => C32_dense_zero 3)
    (fun _ => ⟨⟨rfl, fun _ _ => show 3 ≤ 10 by omega⟩, C32_csr_zero 3 1⟩)
    (fun _ => ⟨rfl, Ell.represents_iff.2 (Ell.zero_rep 3 4)⟩)

end Bml.Props
