import Verif.Props.Rounding

/-!
# Property C83, programs: how errors add up over a program

`Spec.exact` is the program in exact arithmetic without thresholds, `Spec.bound` the error that a
call may add to the errors of its operands.  Both speak of numbers only.
-/

set_option linter.unusedSectionVars false

namespace Bml.Spec

open History

variable {F : Type} {K : Type} [NormedField K]

/-- What a call computes in exact arithmetic, without thresholds; `x v` is the value of variable
`v`. -/
def exact (val : F → K) (N : Nat) (x : Nat → Mat K) : Cmd F → Mat K
  | .zero _ => fun _ _ => 0
  | .identity _ => fun i j => if i = j then 1 else 0
  | .set i j y v => fun i' j' => if i' = i ∧ j' = j then val y else x v i' j'
  | .setRow _ i row v => fun i' j => if i' = i then val (row.get j) else x v i' j
  | .setDiagonal _ d v => fun i j => if i = j then val (d.get i) else x v i j
  | .copyNew v _ | .copy v _ | .threshold _ v => x v
  | .scaleInplace c v | .scale c v _ => fun i j => val c * x v i j
  | .add _ α β w v => fun i j => val α * x v i j + val β * x w i j
  | .addIdentity _ β v => fun i j => x v i j + if i = j then val β else 0
  | .scaleAddIdentity _ α β v => fun i j => val α * x v i j + if i = j then val β else 0
  | .multiply _ α β v w u => fun i j =>
    val α * (∑ k ∈ Finset.range N, x v i k * x w k j) + val β * x u i j
  | .square _ v _ => fun i j => ∑ k ∈ Finset.range N, x v i k * x v k j
  | .transpose v | .transposeNew v _ => fun i j => x v j i

/-- The error of `c x`, if `x` is known up to `e`. -/
def errScale (u : ℝ) (c x : K) (e : ℝ) : ℝ := ‖c‖ * (u * ‖x‖ + (1 + u) * e)

/-- The error of `x + d`, thresholded, if `x` is known up to `e`. -/
def errShift (u t : ℝ) (x : K) (e : ℝ) (d : K) : ℝ := u * (‖x‖ + e + ‖d‖) + e + t

/-- The error of `c x + d y`, thresholded, if `x` and `y` are known up to `e` and `f`. -/
def errSum (u t : ℝ) (c x : K) (e : ℝ) (d y : K) (f : ℝ) : ℝ :=
  ((1 + u) ^ 2 - 1) * (‖c‖ * (‖x‖ + e) + ‖d‖ * (‖y‖ + f)) + (‖c‖ * e + ‖d‖ * f) + t

/-- The error of an inner product of length `N`, thresholded, if its factors `x k` and `y k` are
known up to `e k` and `f k`. -/
def errInner (u t : ℝ) (N : Nat) (x : Nat → K) (e : Nat → ℝ) (y : Nat → K) (f : Nat → ℝ) : ℝ :=
  ((1 + u) ^ N - 1) * (∑ k ∈ Finset.range N, (‖x k‖ + e k) * (‖y k‖ + f k))
    + (∑ k ∈ Finset.range N, (‖x k‖ * f k + e k * ‖y k‖ + e k * f k)) + t

/-- The error of the result of a call, if the elements of variable `v` are known up to `e v`; `τ t`
bounds what the threshold test `t` drops. -/
def bound (val : F → K) (u : ℝ) (τ : (F → Bool) → ℝ) (N : Nat) (x : Nat → Mat K)
    (e : Nat → Mat ℝ) : Cmd F → Mat ℝ
  | .zero _ | .identity _ => fun _ _ => 0
  | .set i j _ v => fun i' j' => if i' = i ∧ j' = j then 0 else e v i' j'
  | .setRow t i _ v => fun i' j => if i' = i then τ t else e v i' j
  | .setDiagonal t _ v => fun i j => if i = j then τ t else e v i j
  | .copyNew v _ | .copy v _ => e v
  | .threshold t v => fun i j => e v i j + τ t
  | .scaleInplace c v | .scale c v _ => fun i j => errScale u (val c) (x v i j) (e v i j)
  | .add t α β w v => fun i j =>
    errSum u (τ t) (val α) (x v i j) (e v i j) (val β) (x w i j) (e w i j)
  | .addIdentity t β v => fun i j =>
    if i = j then errShift u (τ t) (x v i j) (e v i j) (val β) else e v i j + τ t
  | .scaleAddIdentity t α β v => fun i j =>
    let e' := errScale u (val α) (x v i j) (e v i j)
    if i = j then errShift u (τ t) (val α * x v i j) e' (val β) else e' + τ t
  | .multiply t α β v w c => fun i j =>
    errSum u (τ t) (val β) (x c i j) (e c i j) (val α) (∑ k ∈ Finset.range N, x v i k * x w k j)
      (errInner u (τ t) N (x v i) (e v i) (fun k => x w k j) (fun k => e w k j))
  | .square t v _ => fun i j =>
    errInner u (τ t) N (x v i) (e v i) (fun k => x v k j) (fun k => e v k j)
  | .transpose v | .transposeNew v _ => fun i j => e v j i

/-- The values of the variables after a program, in exact arithmetic, and the errors. -/
def estimate (val : F → K) (u : ℝ) (τ : (F → Bool) → ℝ) (N : Nat) :
    List (Cmd F) → (Nat → Mat K) × (Nat → Mat ℝ) → (Nat → Mat K) × (Nat → Mat ℝ)
  | [], s => s
  | c :: cs, s => estimate val u τ N cs
      (upd s.1 c.target (exact val N s.1 c), upd s.2 c.target (bound val u τ N s.1 s.2 c))

/-- The threshold test of a call drops only numbers up to `τ`. -/
def Drops (val : F → K) (τ : (F → Bool) → ℝ) : Cmd F → Prop
  | .setRow t _ _ _ | .setDiagonal t _ _ | .add t _ _ _ _ | .addIdentity t _ _
  | .scaleAddIdentity t _ _ _ | .threshold t _ | .multiply t _ _ _ _ _ | .square t _ _ =>
    0 ≤ τ t ∧ ∀ x, t x = false → ‖val x‖ ≤ τ t
  | _ => True

end Bml.Spec

namespace Bml.SRow

variable {F : Type} [Zero F]

theorem look_change {L : SRow F} (j : Nat) (f : F → F) (k : Nat) :
    look (Spec.change j f L) k
      = if k = j ∧ Spec.HasColumn j L then f (look L j) else look L k := by
  unfold Spec.change
  induction L with
  | nil => simp [Spec.HasColumn]
  | cons q L ih =>
    rw [List.map_cons, look_cons, look_cons, look_cons, ih]
    by_cases hq : q.1 = j
    · subst hq
      have hc : Spec.HasColumn q.1 (q :: L) := by simp [Spec.HasColumn]
      by_cases hk : k = q.1
      · subst hk
        simp [hc]
      · simp [hk, Ne.symm hk]
    · have hc : Spec.HasColumn j (q :: L) ↔ Spec.HasColumn j L := by
        unfold Spec.HasColumn
        rw [List.map_cons, List.mem_cons]
        exact ⟨fun e => e.resolve_left fun e => hq e.symm, Or.inr⟩
      simp only [hq, if_false, hc]
      by_cases hk : k = j
      · subst hk
        simp [hq]
      · simp [hk]

theorem look_scaled [Mul F] (c : F) (L : SRow F) (j : Nat) :
    look (Spec.scaled c L) j = if Spec.HasColumn j L then c * look L j else 0 := by
  unfold Spec.scaled
  induction L with
  | nil => simp [Spec.HasColumn]
  | cons q L ih =>
    rw [List.map_cons, look_cons, look_cons, ih]
    by_cases hq : q.1 = j
    · subst hq
      simp [Spec.HasColumn]
    · have hc : Spec.HasColumn j (q :: L) ↔ Spec.HasColumn j L := by
        unfold Spec.HasColumn
        rw [List.map_cons, List.mem_cons]
        exact ⟨fun e => e.resolve_left fun e => hq e.symm, Or.inr⟩
      simp only [hq, if_false, hc]

theorem look_rowOf (big : F → Bool) {N : Nat} (x : Nat → F) {j : Nat} (hj : j < N) :
    look (Spec.rowOf big N x) j = Spec.keep big (x j) := by
  unfold Spec.rowOf
  have hn : (((List.range N).map fun j => (j, x j)).map Prod.fst).Nodup := by
    rw [List.map_map]
    have : ((Prod.fst : Nat × F → Nat) ∘ fun j => (j, x j)) = id := rfl
    rw [this, List.map_id]
    exact List.nodup_range
  rw [look_filter hn (fun _ y => big y) j,
    look_of_mem hn (List.mem_map.2 ⟨j, List.mem_range.2 hj, rfl⟩)]
  rfl

theorem good_scaled [Mul F] {N : Nat} {L : SRow F} (h : Good N L) (c : F) :
    Good N (Spec.scaled c L) := by
  have : (Spec.scaled c L).map Prod.fst = L.map Prod.fst := by
    unfold Spec.scaled
    rw [List.map_map]
    rfl
  refine ⟨by rw [this]; exact h.1, fun p hp => ?_⟩
  have hm : p.1 ∈ (Spec.scaled c L).map Prod.fst := List.mem_map_of_mem hp
  rw [this] at hm
  obtain ⟨q, hq, he⟩ := List.mem_map.1 hm
  rw [← he]
  exact h.2 q hq

end Bml.SRow

namespace Bml.Props

open History _root_.Bml.Spec

variable {F : Type} [Zero F] [One F] [Add F] [Mul F]
variable {K : Type} [NormedField K] {val : F → K} {u : ℝ}

theorem norm_of_near {p q : K} {e : ℝ} (h : ‖p - q‖ ≤ e) : ‖p‖ ≤ ‖q‖ + e := by
  have := norm_le_norm_add_norm_sub q p
  rw [norm_sub_rev] at this
  linarith

theorem near_keep (h : Rounds val u) {big : F → Bool} {τ : ℝ}
    (hτ : 0 ≤ τ ∧ ∀ x, big x = false → ‖val x‖ ≤ τ) {y : F} {x : K} {e : ℝ}
    (hy : ‖val y - x‖ ≤ e) : ‖val (keep big y) - x‖ ≤ e + τ := by
  have h1 := drop_error h hτ.2 hτ.1 y
  have h2 := norm_sub_le_norm_sub_add_norm_sub (val (keep big y)) (val y) x
  linarith

theorem near_scale (h : Rounds val u) (c : F) {L : SRow F} {j : Nat} {x : K} {e : ℝ}
    (hy : ‖val (SRow.look L j) - x‖ ≤ e) :
    ‖val (SRow.look (scaled c L) j) - val c * x‖ ≤ errScale u (val c) x e := by
  rw [SRow.look_scaled]
  have hu := h.unit
  have hc := norm_nonneg (val c)
  have hx := norm_nonneg x
  have he : 0 ≤ e := (norm_nonneg _).trans hy
  unfold errScale
  split
  · generalize SRow.look L j = y at hy
    have h1 := h.mul c y
    have h2 : ‖val c * val y - val c * x‖ ≤ ‖val c‖ * e := by
      rw [← mul_sub, norm_mul]
      exact mul_le_mul_of_nonneg_left hy hc
    have h3 := norm_sub_le_norm_sub_add_norm_sub (val (c * y)) (val c * val y) (val c * x)
    rw [norm_mul] at h1
    have h4 : u * (‖val c‖ * ‖val y‖) ≤ u * (‖val c‖ * (‖x‖ + e)) :=
      mul_le_mul_of_nonneg_left (mul_le_mul_of_nonneg_left (norm_of_near hy) hc) hu
    nlinarith
  · next hn =>
    rw [SRow.look_of_not_mem hn, h.zero, zero_sub, norm_neg] at hy
    rw [h.zero, zero_sub, norm_neg, norm_mul]
    refine mul_le_mul_of_nonneg_left ?_ hc
    nlinarith [mul_nonneg hu hx, mul_nonneg hu he]

theorem near_sum [DecidableEq F] (h : Rounds val u) {N : Nat} {L L' : SRow F} (hL : SRow.Good N L)
    (hL' : SRow.Good N L') (c d : F) {big : F → Bool} {τ : ℝ}
    (hτ : 0 ≤ τ ∧ ∀ x, big x = false → ‖val x‖ ≤ τ) {j : Nat} {x y : K} {e f : ℝ}
    (hx : ‖val (SRow.look L j) - x‖ ≤ e) (hy : ‖val (SRow.look L' j) - y‖ ≤ f) :
    ‖val (SRow.look (sumRow big c d L L') j) - (val c * x + val d * y)‖
      ≤ errSum u τ (val c) x e (val d) y f := by
  have h1 := sum_error h hL hL' c d hτ.2 hτ.1 j
  generalize SRow.look L j = x' at *
  generalize SRow.look L' j = y' at *
  have h2 : ‖(val c * val x' + val d * val y') - (val c * x + val d * y)‖
      ≤ ‖val c‖ * e + ‖val d‖ * f := by
    have : (val c * val x' + val d * val y') - (val c * x + val d * y)
        = val c * (val x' - x) + val d * (val y' - y) := by ring
    rw [this]
    refine (norm_add_le _ _).trans ?_
    rw [norm_mul, norm_mul]
    exact add_le_add (mul_le_mul_of_nonneg_left hx (norm_nonneg _))
      (mul_le_mul_of_nonneg_left hy (norm_nonneg _))
  have h3 := norm_sub_le_norm_sub_add_norm_sub (val (SRow.look (sumRow big c d L L') j))
    (val c * val x' + val d * val y') (val c * x + val d * y)
  have h4 : ((1 + u) ^ 2 - 1) * (‖val c‖ * ‖val x'‖ + ‖val d‖ * ‖val y'‖)
      ≤ ((1 + u) ^ 2 - 1) * (‖val c‖ * (‖x‖ + e) + ‖val d‖ * (‖y‖ + f)) :=
    mul_le_mul_of_nonneg_left (add_le_add
      (mul_le_mul_of_nonneg_left (norm_of_near hx) (norm_nonneg _))
      (mul_le_mul_of_nonneg_left (norm_of_near hy) (norm_nonneg _))) (sub_nonneg.2 (h.one_le 2))
  unfold errSum
  linarith

theorem near_inner (h : Rounds val u) {N : Nat} {L : SRow F} {ρ : Nat → SRow F}
    (hL : SRow.Good N L) (hρ : ∀ k, k < N → SRow.Good N (ρ k)) {big : F → Bool} {τ : ℝ}
    (hτ : 0 ≤ τ ∧ ∀ x, big x = false → ‖val x‖ ≤ τ) (i j : Nat)
    {x y : Nat → K} {e f : Nat → ℝ} (hx : ∀ k, k < N → ‖val (SRow.look L k) - x k‖ ≤ e k)
    (hy : ∀ k, k < N → ‖val (SRow.look (ρ k) j) - y k‖ ≤ f k) :
    ‖val (SRow.look (productRow big L ρ i) j) - ∑ k ∈ Finset.range N, x k * y k‖
      ≤ errInner u τ N x e y f := by
  have h1 := h.product hL hρ j
  rw [product_entry big hL.2 (fun k hk => (hρ k hk).2) i j]
  simp only
  generalize summed (inColumn j (terms L ρ)) = z at h1
  have hz : ‖val (if i = j ∨ big z = true then z else 0) - val z‖ ≤ τ := by
    by_cases hij : i = j
    · rw [if_pos (Or.inl hij), sub_self, norm_zero]
      exact hτ.1
    · have : (if i = j ∨ big z = true then z else 0) = keep big z := by
        unfold keep
        simp [hij]
      rw [this]
      exact drop_error h hτ.2 hτ.1 z
  generalize (if i = j ∨ big z = true then z else 0) = w at hz
  have h2 : ‖(∑ k ∈ Finset.range N, val (SRow.look L k) * val (SRow.look (ρ k) j))
      - ∑ k ∈ Finset.range N, x k * y k‖
      ≤ ∑ k ∈ Finset.range N, (‖x k‖ * f k + e k * ‖y k‖ + e k * f k) := by
    rw [← Finset.sum_sub_distrib]
    refine (norm_sum_le _ _).trans (Finset.sum_le_sum fun k hk => ?_)
    have hk := Finset.mem_range.1 hk
    have a1 := hx k hk
    have a2 := hy k hk
    generalize val (SRow.look L k) = p at *
    generalize val (SRow.look (ρ k) j) = q at *
    have : p * q - x k * y k = x k * (q - y k) + (p - x k) * y k + (p - x k) * (q - y k) := by ring
    rw [this]
    have he : 0 ≤ e k := (norm_nonneg _).trans a1
    refine (norm_add_le _ _).trans (add_le_add ((norm_add_le _ _).trans (add_le_add ?_ ?_)) ?_)
    · rw [norm_mul]; exact mul_le_mul_of_nonneg_left a2 (norm_nonneg _)
    · rw [norm_mul]; exact mul_le_mul_of_nonneg_right a1 (norm_nonneg _)
    · rw [norm_mul]; exact mul_le_mul a1 a2 (norm_nonneg _) he
  have h3 : ((1 + u) ^ L.length - 1)
        * (∑ k ∈ Finset.range N, ‖val (SRow.look L k)‖ * ‖val (SRow.look (ρ k) j)‖)
      ≤ ((1 + u) ^ N - 1) * ∑ k ∈ Finset.range N, (‖x k‖ + e k) * (‖y k‖ + f k) := by
    refine mul_le_mul (sub_le_sub_right (h.pow_mono (good_length hL)) 1)
      (Finset.sum_le_sum fun k hk => ?_)
      (Finset.sum_nonneg fun k _ => mul_nonneg (norm_nonneg _) (norm_nonneg _))
      (sub_nonneg.2 (h.one_le N))
    have hk := Finset.mem_range.1 hk
    have b1 := norm_of_near (hx k hk)
    exact mul_le_mul b1 (norm_of_near (hy k hk)) (norm_nonneg _) ((norm_nonneg _).trans b1)
  have h4 := norm_sub_le_norm_sub_add_norm_sub (val w) (val z) (∑ k ∈ Finset.range N, x k * y k)
  have h5 := norm_sub_le_norm_sub_add_norm_sub (val z)
    (∑ k ∈ Finset.range N, val (SRow.look L k) * val (SRow.look (ρ k) j))
    (∑ k ∈ Finset.range N, x k * y k)
  unfold errInner
  linarith

theorem near_identity [DecidableEq F] (h : Rounds val u) {N i : Nat} {L : SRow F}
    (hL : SRow.Good N L) (hi : i < N) (β : F) {big : F → Bool} {τ : ℝ}
    (hτ : 0 ≤ τ ∧ ∀ x, big x = false → ‖val x‖ ≤ τ) {j : Nat} {x : K} {e : ℝ}
    (hx : ‖val (SRow.look L j) - x‖ ≤ e) :
    ‖val (SRow.look (identityRow big β i L) j) - (x + if i = j then val β else 0)‖
      ≤ if i = j then errShift u τ x e (val β) else e + τ := by
  have hg : ((fullIdentity β i L).map Prod.fst).Nodup := by
    unfold fullIdentity
    split
    · exact hL.1
    · split
      · rw [change_fst]; exact hL.1
      · next hc =>
        rw [List.map_append, List.nodup_append]
        refine ⟨hL.1, by simp, ?_⟩
        intro a ha b hb
        simp only [List.map_cons, List.map_nil, List.mem_singleton] at hb
        rintro rfl
        exact hc (hb ▸ ha)
  unfold identityRow
  have hf := SRow.look_filter hg (fun _ y => big y) j
  have : (if big (SRow.look (fullIdentity β i L) j) = true then SRow.look (fullIdentity β i L) j
      else 0) = keep big (SRow.look (fullIdentity β i L) j) := rfl
  rw [hf, this]
  have hu := h.unit
  have he : 0 ≤ e := (norm_nonneg _).trans hx
  by_cases hij : i = j
  · subst hij
    rw [if_pos rfl, if_pos rfl]
    refine near_keep h hτ ?_
    have hβ := norm_nonneg (val β)
    have hn := norm_nonneg x
    unfold fullIdentity
    split
    · next h0 =>
      subst h0
      rw [h.zero, add_zero, norm_zero, add_zero]
      nlinarith [mul_nonneg hu (add_nonneg hn he)]
    · split
      · next hc =>
        rw [SRow.look_change, if_pos ⟨rfl, hc⟩]
        generalize SRow.look L i = y at hx
        have h1 := h.add y β
        have h2 := norm_sub_le_norm_sub_add_norm_sub (val (y + β)) (val y + val β) (x + val β)
        rw [add_sub_add_right_eq_sub] at h2
        have h3 : u * ‖val y + val β‖ ≤ u * (‖x‖ + e + ‖val β‖) := by
          refine mul_le_mul_of_nonneg_left ((norm_add_le _ _).trans ?_) hu
          linarith [norm_of_near hx]
        linarith
      · next hc =>
        rw [Ell.look_append_single hc, if_pos rfl]
        rw [SRow.look_of_not_mem hc, h.zero, zero_sub, norm_neg] at hx
        rw [sub_add_cancel_right, norm_neg]
        nlinarith [mul_nonneg hu (add_nonneg (add_nonneg hn he) hβ)]
  · rw [if_neg hij, if_neg hij, add_zero]
    refine near_keep h hτ ?_
    have : SRow.look (fullIdentity β i L) j = SRow.look L j := by
      unfold fullIdentity
      split
      · rfl
      · split
        · rw [SRow.look_change, if_neg (fun h => hij h.1.symm)]
        · next hc => rw [Ell.look_append_single hc, if_neg hij]
    rw [this]
    exact hx

variable [Neg F] [Sub F] [DecidableEq F]

/-- One call: the stored elements stay within the bounds. -/
theorem near_step (h : Rounds val u) (h1 : val 1 = 1) {τ : (F → Bool) → ℝ} {N M : Nat}
    {s : Nat → Nat → List (Nat × F)} (hg : ∀ v i, i < N → SRow.Good N (s v i))
    {x : Nat → Mat K} {e : Nat → Mat ℝ}
    (hn : ∀ v i j, i < N → j < N → ‖val (SRow.look (s v i) j) - x v i j‖ ≤ e v i j) (c : Cmd F)
    (hd : Drops val τ c) (hr : Room N M s c) {i j : Nat} (hi : i < N) (hj : j < N) :
    ‖val (SRow.look (stored N s c i) j) - exact val N x c i j‖ ≤ bound val u τ N x e c i j := by
  cases c with
  | zero v => simp [stored, exact, bound, h.zero]
  | identity v =>
    simp only [stored, exact, bound, SRow.look_cons, SRow.look_nil]
    split
    · simp [h1]
    · simp [h.zero]
  | set i' j' y v =>
    simp only [stored, exact, bound]
    by_cases hii : i = i'
    · subst hii
      rw [upd_same]
      have key : SRow.look (setIn j' y (s v i)) j = if j = j' then y else SRow.look (s v i) j := by
        unfold setIn
        split
        · next hc =>
          rw [SRow.look_change]
          by_cases hjj : j = j'
          · rw [if_pos ⟨hjj, hc.2⟩, if_pos hjj]
          · rw [if_neg (fun h => hjj h.1), if_neg hjj]
        · next hc =>
          have hnc : ¬ HasColumn j' (s v i) := by
            rcases hr.1 with hl | hl
            · exact fun hh => hc ⟨hl, hh⟩
            · exact hl
          rw [Ell.look_append_single hnc]
          by_cases hjj : j = j'
          · rw [if_pos hjj.symm, if_pos hjj]
          · rw [if_neg (Ne.symm hjj), if_neg hjj]
      rw [key]
      by_cases hjj : j = j'
      · simp [hjj]
      · simp only [hjj, and_false, if_false]
        exact hn v i j hi hj
    · rw [upd_ne _ _ hii, if_neg (fun h => hii h.1), if_neg (fun h => hii h.1)]
      exact hn v i j hi hj
  | setRow t i' row v =>
    simp only [stored, exact, bound]
    by_cases hii : i = i'
    · subst hii
      rw [upd_same, if_pos rfl, if_pos rfl, SRow.look_rowOf t row.get hj]
      exact drop_error h hd.2 hd.1 _
    · rw [upd_ne _ _ hii, if_neg hii, if_neg hii]
      exact hn v i j hi hj
  | setDiagonal t d v =>
    simp only [stored, exact, bound]
    have key : SRow.look (setDiag t i (d.get i) (s v i)) j
        = if i = j then keep t (d.get i) else SRow.look (s v i) j := by
      unfold setDiag
      split
      · next hc =>
        rw [SRow.look_change]
        by_cases hij : i = j
        · rw [if_pos ⟨hij.symm, hc⟩, if_pos hij]; rfl
        · rw [if_neg (fun h => hij h.1.symm), if_neg hij]
      · next hc =>
        split
        · next hb =>
          rw [Ell.look_append_single hc]
          simp [keep, hb]
        · next hb =>
          by_cases hij : i = j
          · subst hij
            rw [if_pos rfl, SRow.look_of_not_mem hc]
            simp [keep, hb]
          · rw [if_neg hij]
    rw [key]
    by_cases hij : i = j
    · rw [if_pos hij, if_pos hij, if_pos hij]
      exact drop_error h hd.2 hd.1 _
    · rw [if_neg hij, if_neg hij, if_neg hij]
      exact hn v i j hi hj
  | copyNew v w => exact hn v i j hi hj
  | copy v w => exact hn v i j hi hj
  | scaleInplace c v => exact near_scale h c (hn v i j hi hj)
  | scale c v w => exact near_scale h c (hn v i j hi hj)
  | add t α β w v =>
    exact near_sum h (hg v i hi) (hg w i hi) α β hd (hn v i j hi hj) (hn w i j hi hj)
  | addIdentity t β v => exact near_identity h (hg v i hi) hi β hd (hn v i j hi hj)
  | scaleAddIdentity t α β v =>
    exact near_identity h (SRow.good_scaled (hg v i hi) α) hi β hd (near_scale h α (hn v i j hi hj))
  | threshold t v =>
    simp only [stored, exact, bound]
    have hf := SRow.look_filter (hg v i hi).1 (fun _ y => t y) j
    rw [hf]
    exact near_keep h hd (hn v i j hi hj)
  | multiply t α β v w c =>
    have hp := near_inner h (hg v i hi) (hg w) hd i j (fun k hk => hn v i k hi hk)
      (fun k hk => hn w k j hk hj)
    simp only [stored, exact, bound]
    split
    · next hc =>
      obtain ⟨rfl, rfl, rfl⟩ := hc
      rw [h1, h.zero, one_mul, zero_mul, add_zero]
      refine hp.trans ?_
      have he : 0 ≤ errInner u (τ t) N (x v i) (e v i) (fun k => x v k j) fun k => e v k j :=
        (norm_nonneg _).trans hp
      generalize errInner u (τ t) N (x v i) (e v i) (fun k => x v k j) (fun k => e v k j) = E at he
      unfold errSum
      have h2 := sub_nonneg.2 (h.one_le 2)
      have := mul_nonneg h2 (add_nonneg (norm_nonneg (∑ k ∈ Finset.range N, x v i k * x v k j)) he)
      simp only [norm_zero, norm_one, zero_mul, one_mul, zero_add]
      linarith [hd.1]
    · have := near_sum h (hg c i hi)
        (Ell.good_product t i (hg v i hi).2 (fun k hk => (hg w k hk).2)) β α hd (hn c i j hi hj) hp
      rwa [add_comm (val β * _)] at this
  | square t v w =>
    exact near_inner h (hg v i hi) (hg v) hd i j (fun k hk => hn v i k hi hk)
      (fun k hk => hn v k j hk hj)
  | transpose v => exact absurd hr id
  | transposeNew v w => exact absurd hr id

/-- **C83**, programs: after a program of any length the stored elements differ from the exact values
by at most the accumulated bound, for every schedule and every content of fresh memory. -/
theorem C83_program (h : Rounds val u) (h1 : val 1 = 1) {τ : (F → Bool) → ℝ} {N M : Nat}
    (hM : 0 < M) : ∀ {p : List (Cmd F × Env F)} {S : Nat → Ell F}
    {s : Nat → Nat → List (Nat × F)} {x : Nat → Mat K} {e : Nat → Mat ℝ},
    (∀ c ∈ p, c.1.Legal N ∧ c.2.Valid N ∧ Drops val τ c.1) →
    (∀ v, (S v).Stores N M (s v)) →
    (∀ v i j, i < N → j < N → ‖val (entry (s v i) j) - x v i j‖ ≤ e v i j) →
    RoomAll N M (p.map fun c => Stmt.call c.1) s →
    ∃ (S' : Nat → Ell F) (a : Nat → Mat F), run (ellValue N M) p S = .ok S' ∧ (∀ v, (S' v).Represents N (a v)) ∧
      ∀ v i j, i < N → j < N →
        ‖val (a v i j) - (estimate val u τ N (p.map Prod.fst) (x, e)).1 v i j‖
          ≤ (estimate val u τ N (p.map Prod.fst) (x, e)).2 v i j := by
  intro p
  induction p with
  | nil =>
    intro S s x e _ hS hn _
    refine ⟨S, _, rfl, fun v => (hS v).represents, fun v i j hi hj => ?_⟩
    have := hn v i j hi hj
    rwa [entry_eq] at this
  | cons c p ih =>
    intro S s x e hp hS hn hr
    obtain ⟨c, ω⟩ := c
    obtain ⟨hl, hω, hd⟩ := hp _ List.mem_cons_self
    obtain ⟨hr1, hr2⟩ := hr
    obtain ⟨A, eA, hA⟩ := Res.wp_exists (stored_step hM c ω S s hS hl hω hr1)
    have hn' : ∀ v i j, i < N → j < N → ‖val (SRow.look (s v i) j) - x v i j‖ ≤ e v i j := by
      intro v i j hi hj
      have := hn v i j hi hj
      rwa [entry_eq] at this
    obtain ⟨S', a, e1, e2, e3⟩ := ih (S := upd S c.target A)
      (s := upd s c.target (stored N s c)) (x := upd x c.target (exact val N x c))
      (e := upd e c.target (bound val u τ N x e c))
      (fun c hc => hp c (List.mem_cons_of_mem _ hc))
      (fun v => by
        by_cases hv : v = c.target
        · subst hv; rw [upd_same, upd_same]; exact hA
        · rw [upd_ne _ _ hv, upd_ne _ _ hv]; exact hS v)
      (fun v i j hi hj => by
        rw [entry_eq]
        by_cases hv : v = c.target
        · subst hv
          rw [upd_same, upd_same, upd_same]
          exact near_step h h1 (fun v i hi => (hS v).good i hi) hn' c hd hr1 hi hj
        · rw [upd_ne _ _ hv, upd_ne _ _ hv, upd_ne _ _ hv]
          exact hn' v i j hi hj)
      hr2
    refine ⟨S', a, ?_, e2, e3⟩
    show (ellValue N M ω S c >>= fun A => run (ellValue N M) p (upd S c.target A)) = _
    rw [eA, Res.bind_ok, e1]

/-- **C83**, rows as wide as the matrix: no condition on what is stored, for programs without
`bml_set_element` and transpositions.  At the start the variables hold `a` exactly. -/
theorem C83_wide (h : Rounds val u) (h1 : val 1 = 1) {τ : (F → Bool) → ℝ} {N M : Nat}
    (hM : 0 < M) (hNM : N ≤ M) {p : List (Cmd F × Env F)} {S : Nat → Ell F} {a : Nat → Mat F}
    (hp : ∀ c ∈ p, c.1.Legal N ∧ c.2.Valid N ∧ Drops val τ c.1 ∧ Repeats (Stmt.call c.1))
    (hS : ∀ v, (S v).M = M ∧ (S v).Represents N (a v)) :
    ∃ (S' : Nat → Ell F) (b : Nat → Mat F), run (ellValue N M) p S = .ok S' ∧ (∀ v, (S' v).Represents N (b v)) ∧
      ∀ v i j, i < N → j < N →
        ‖val (b v i j) - (estimate val u τ N (p.map Prod.fst)
              (fun v i j => val (a v i j), fun _ _ _ => 0)).1 v i j‖
          ≤ (estimate val u τ N (p.map Prod.fst)
              (fun v i j => val (a v i j), fun _ _ _ => 0)).2 v i j := by
  have hs : ∀ v, (S v).Stores N M (S v).row := fun v => by
    have := (hS v).2.stores.1
    rwa [(hS v).1] at this
  refine C83_program h h1 hM (fun c hc => ⟨(hp c hc).1, (hp c hc).2.1, (hp c hc).2.2.1⟩) hs
    (fun v i j hi hj => ?_) (roomAll_wide hNM ?_ ?_ fun v i hi => (hs v).good i hi)
  · rw [entry_eq, (hS v).2.stores.2 i j hi hj, sub_self, norm_zero]
  · intro c hc
    obtain ⟨d, hd, rfl⟩ := List.mem_map.1 hc
    exact (hp d hd).2.2.2
  · intro c hc
    obtain ⟨d, hd, rfl⟩ := List.mem_map.1 hc
    exact (hp d hd).1

/-- The bounds are sharp where nothing is lost: without rounding and without thresholds they stay
zero. -/
theorem estimate_zero (val : F → K) (N : Nat) : ∀ (cs : List (Cmd F)) (x : Nat → Mat K),
    (estimate val 0 (fun _ => 0) N cs (x, fun _ _ _ => 0)).2 = fun _ _ _ => 0 := by
  intro cs
  induction cs with
  | nil => intro x; rfl
  | cons c cs ih =>
    intro x
    have hb : bound val 0 (fun _ => 0) N x (fun _ _ _ => 0) c = fun _ _ => 0 := by
      funext i j
      cases c <;> simp [bound, errScale, errShift, errSum, errInner]
    have : upd (fun _ _ _ => (0 : ℝ)) c.target (bound val 0 (fun _ => 0) N x (fun _ _ _ => 0) c)
        = fun _ _ _ => (0 : ℝ) := by
      funext v
      by_cases hv : v = c.target
      · subst hv; rw [upd_same, hb]
      · rw [upd_ne _ _ hv]
    show (estimate val 0 (fun _ => 0) N cs (_, upd _ _ _)).2 = _
    rw [this]
    exact ih _

/-! ## Example: three-bit arithmetic, `u = 1/4` -/

/-- Variable 2 becomes `3 A B + C` with `A` and `B` of the matrices `shMat 9` and `C` too. -/
example : ∃ (S' : Nat → Ell Short) (b : Nat → Mat Short), run (ellValue 3 3)
      [(.copyNew 0 1, shEnv 3 [(1, 2), (0, 1), (1, 0)] true ⟨5⟩),
        (.multiply shBig ⟨3⟩ 1 0 1 2, shEnv 3 [(1, 2), (0, 1), (1, 0)] true ⟨5⟩)]
      (fun _ => shMat 9) = .ok S' ∧ (∀ v, (S' v).Represents 3 (b v)) ∧
      |((b 2 0 0).val : ℝ) - 252| ≤ 515727 / 1024 := by
  have hω : (shEnv 3 [(1, 2), (0, 1), (1, 0)] true ⟨5⟩).Valid 3 :=
    shEnv_valid (by unfold IsSched; decide) _ _
  have hd : 0 ≤ (0 : ℝ) ∧ ∀ x, shBig x = false → ‖((x.val : Int) : ℝ)‖ ≤ 0 :=
    ⟨le_refl _, shBig_drops⟩
  obtain ⟨S', b, e1, e2, e3⟩ := C83_wide (val := fun x : Short => (x.val : ℝ)) Short.rounds
    (show ((1 : Int) : ℝ) = 1 by norm_num) (τ := fun _ => 0) (N := 3) (M := 3) (by decide)
    (by decide)
    (p := [(.copyNew 0 1, shEnv 3 [(1, 2), (0, 1), (1, 0)] true ⟨5⟩),
        (.multiply shBig ⟨3⟩ 1 0 1 2, shEnv 3 [(1, 2), (0, 1), (1, 0)] true ⟨5⟩)])
    (S := fun _ => shMat 9)
    (fun c hc => by
      simp only [List.mem_cons, List.not_mem_nil, or_false] at hc
      rcases hc with rfl | rfl
      · exact ⟨trivial, hω, trivial, trivial⟩
      · exact ⟨⟨by decide, by decide⟩, hω, hd, trivial⟩)
    (fun _ => ⟨rfl, shMat_represents 9⟩)
  refine ⟨S', b, e1, e2, ?_⟩
  have := e3 2 0 0 (by decide) (by decide)
  simp [estimate, exact, bound, errSum, errInner, Cmd.target, upd, Finset.sum_range_succ,
    show ((0 : Short).val) = 0 from rfl, show ((1 : Short).val) = 1 from rfl] at this
  norm_num at this
  exact this

end Bml.Props
