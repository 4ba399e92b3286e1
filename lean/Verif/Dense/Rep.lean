import Verif.Dense.Model
import Verif.Own
import Verif.Spec
import Verif.Ellpack.Update
import Verif.Ellpack.Construct

/-!
# Dense matrices: representation, and what each kernel computes
-/

namespace Bml

namespace Dense

variable {R : Type} {E : Prop}

/-- `A` is an `N × N` matrix and `bml_get_element` returns `a i j` for all `i, j < N`. -/
structure Represents (A : Dense R) (N : Nat) (a : Spec.Mat R) : Prop where
  dim : A.N = N
  size : A.mat.size = N * N
  get : ∀ i j : Nat, i < N → j < N → A.getElement i j = .ok (a i j)

/-- The same in terms of cells. -/
structure Rep (A : Dense R) (N : Nat) (a : Spec.Mat R) : Prop where
  dim : A.N = N
  size : A.mat.size = N * N
  get : ∀ i j : Nat, i < N → j < N → A.mat.get (i * N + j) = a i j

theorem getElement_nat {A : Dense R} {N : Nat} (hN : A.N = N) (hs : A.mat.size = N * N) {i j : Nat}
    (hi : i < N) (hj : j < N) : A.getElement i j = .ok (A.mat.get (i * N + j)) := by
  unfold getElement readInt
  have h1 : ((i : Int) * (A.N : Int) + (j : Int)) = ((i * N + j : Nat) : Int) := by
    rw [hN]; push_cast; rfl
  rw [h1, if_neg (by omega), Int.toNat_natCast, Arr.read_ok (by rw [hs]; exact addr_lt hi hj)]

theorem represents_iff {A : Dense R} {N : Nat} {a : Spec.Mat R} : A.Represents N a ↔ A.Rep N a := by
  constructor
  · rintro ⟨h1, h2, h3⟩
    refine ⟨h1, h2, fun i j hi hj => ?_⟩
    have := h3 i j hi hj
    rw [getElement_nat h1 h2 hi hj] at this
    exact Res.ok.inj this
  · rintro ⟨h1, h2, h3⟩
    refine ⟨h1, h2, fun i j hi hj => ?_⟩
    rw [getElement_nat h1 h2 hi hj, h3 i j hi hj]

theorem Represents.congr {A : Dense R} {N : Nat} {a b : Spec.Mat R} (h : A.Represents N a)
    (hab : Spec.Eq N a b) : A.Represents N b :=
  ⟨h.dim, h.size, fun i j hi hj => by rw [h.get i j hi hj, hab i j hi hj]⟩

theorem Rep.congr {A : Dense R} {N : Nat} {a b : Spec.Mat R} (h : A.Rep N a)
    (hab : Spec.Eq N a b) : A.Rep N b :=
  ⟨h.dim, h.size, fun i j hi hj => by rw [h.get i j hi hj, hab i j hi hj]⟩

/-- A function on cells from a function of row and column. -/
def flat (N : Nat) (f : Nat → Nat → R) (p : Nat) : R := f (p / N) (p % N)

theorem addr_div {i j N : Nat} (hj : j < N) : (i * N + j) / N = i := by
  rw [Nat.add_comm, Nat.add_mul_div_right _ _ (by omega), Nat.div_eq_of_lt hj]; omega

theorem addr_mod {i j N : Nat} (hj : j < N) : (i * N + j) % N = j := by
  rw [Nat.add_comm, Nat.add_mul_mod_self_right, Nat.mod_eq_of_lt hj]

theorem flat_addr {N : Nat} (f : Nat → Nat → R) {i j : Nat} (hj : j < N) :
    flat N f (i * N + j) = f i j := by
  unfold flat; rw [addr_div hj, addr_mod hj]

theorem lt_of_addr {i j N n : Nat} (h : i * N + j < n * N) : i < n := by
  by_contra hc
  have : n * N ≤ i * N := Nat.mul_le_mul_right N (by omega)
  omega

theorem le_of_addr {i j N n : Nat} (hj : j < N) (h : n * N ≤ i * N + j) : n ≤ i := by
  by_contra hc
  have : (i + 1) * N ≤ n * N := Nat.mul_le_mul_right N (by omega)
  rw [Nat.add_mul, Nat.one_mul] at this
  omega

/-- `lo*N ≤ i*N+j < hi*N` exactly for the rows `lo ≤ i < hi`. -/
theorem addr_between {i j N lo hi : Nat} (hj : j < N) :
    (lo * N ≤ i * N + j ∧ i * N + j < hi * N) ↔ (lo ≤ i ∧ i < hi) := by
  constructor
  · rintro ⟨h1, h2⟩; exact ⟨le_of_addr hj h1, lt_of_addr h2⟩
  · rintro ⟨h1, h2⟩
    have := Nat.mul_le_mul_right N h1
    exact ⟨by omega, addr_lt h2 hj⟩

/-! ## Element access -/

theorem wp_setElement {N : Nat} {A : Dense R} {a : Spec.Mat R} (hA : A.Rep N a) {i j : Nat}
    (hi : i < N) (hj : j < N) (v : R) :
    (A.setElement i j v).wp E (fun A' => A'.Rep N (Spec.set a i j v)) := by
  unfold setElement writeInt
  have h1 : ((i : Int) * (A.N : Int) + (j : Int)) = ((i * N + j : Nat) : Int) := by
    rw [hA.dim]; push_cast; rfl
  rw [h1, if_neg (by omega), Int.toNat_natCast,
    Arr.write_ok _ (by rw [hA.size]; exact addr_lt hi hj), Res.bind_ok, Res.wp_pure]
  refine ⟨hA.dim, hA.size, fun i' j' hi' hj' => ?_⟩
  simp only [Spec.set, upd]
  by_cases h : i' = i ∧ j' = j
  · rw [if_pos h, h.1, h.2, if_pos rfl]
  · rw [if_neg h, if_neg (fun he => h (addr_inj hj' hj he))]
    exact hA.get i' j' hi' hj'

/-- A loop that writes the cells `(i, j)`, `j < N`, of row `i`. -/
theorem wp_rowLoop {N i : Nat} {x : Arr R} {f : Nat → Arr R → Res (Arr R)} (g : Nat → R)
    (hf : ∀ j x', j < N → x'.size = x.size →
      (∀ p, (∀ j, j < N → p ≠ i * N + j) → x'.get p = x.get p) →
      f j x' = .ok ⟨x'.size, upd x'.get (i * N + j) (g j)⟩) :
    (loop N x f).wp E (Filled1 (fun p => ∃ j, j < N ∧ p = i * N + j) (flat N fun _ j => g j) x) := by
  refine wp_fillLoop (fun j p => p = i * N + j) _ (fun j j' p _ _ h1 h2 => by omega) ?_
  intro j x' hj hs _ h
  rw [hf j x' hj hs (fun p hp => h p hp), Res.wp_ok]
  refine filled1_write ?_
  rw [flat_addr _ hj]

theorem wp_setRow {N : Nat} {A : Dense R} {a : Spec.Mat R} (hA : A.Rep N a) {i : Nat}
    (hi : i < N) {row : Arr R} (hrow : N ≤ row.size) :
    (A.setRow i row).wp E (fun A' => A'.Rep N (fun i' j => if i' = i then row.get j else a i' j)) := by
  unfold setRow
  rw [Res.wp_bind, hA.dim]
  refine Res.wp_mono (wp_rowLoop (i := i) (fun j => row.get j) ?_) ?_
  · intro j x' hj hs _
    rw [Arr.read_ok (by omega), Res.bind_ok]
    exact Arr.write_ok _ (by rw [hs, hA.size]; exact addr_lt hi hj)
  · rintro x ⟨h1, h2, h3⟩
    rw [Res.wp_pure]
    refine ⟨rfl, by rw [← hA.size]; exact h1, fun i' j hi' hj => ?_⟩
    by_cases h : i' = i
    · subst h
      rw [if_pos rfl, h2 _ ⟨j, hj, rfl⟩, flat_addr _ hj]
    · rw [if_neg h, h3 _ ?_, hA.get i' j hi' hj]
      rintro ⟨j', hj', he⟩
      exact h (addr_inj hj hj' he).1

theorem wp_setDiagonal {N : Nat} {A : Dense R} {a : Spec.Mat R} (hA : A.Rep N a)
    {d : Arr R} (hd : N ≤ d.size) :
    (A.setDiagonal d).wp E (fun A' => A'.Rep N (fun i j => if i = j then d.get i else a i j)) := by
  unfold setDiagonal
  rw [Res.wp_bind, hA.dim]
  refine Res.wp_mono (wp_fillLoop (fun j p => p = j * N + j) (flat N fun i _ => d.get i) ?_ ?_) ?_
  · intro i j p hi hj h1 h2
    exact (addr_inj hi hj (h1.symm.trans h2)).1
  · intro i x hi hs _ _
    rw [Arr.read_ok (by omega), Res.bind_ok, Arr.wp_write]
    exact ⟨by rw [hs, hA.size]; exact addr_lt hi hi, filled1_write (flat_addr _ hi)⟩
  · rintro x ⟨h1, h2, h3⟩
    rw [Res.wp_pure]
    refine ⟨rfl, by rw [← hA.size]; exact h1, fun i j hi hj => ?_⟩
    by_cases h : i = j
    · subst h
      rw [if_pos rfl]
      simp only
      rw [h2 _ ⟨i, hi, rfl⟩, flat_addr _ hi]
    · rw [if_neg h]
      simp only
      rw [h3 _ ?_, hA.get i j hi hj]
      rintro ⟨k, hk, he⟩
      have := addr_inj hj hk he
      omega

theorem wp_vecLoop {N : Nat} {junk : Nat → R} {f : Nat → Arr R → Res (Arr R)} (g : Nat → R)
    (hf : ∀ j x', j < N → x'.size = N → f j x' = .ok ⟨x'.size, upd x'.get j (g j)⟩) :
    (loop N ⟨N, junk⟩ f).wp E (fun r => r.size = N ∧ ∀ j, j < N → r.get j = g j) := by
  refine Res.wp_mono (wp_fillLoop (fun j p => p = j) g (fun i j p _ _ h1 h2 => by omega) ?_) ?_
  · intro i x hi hs _ _
    rw [hf i x hi hs, Res.wp_ok]
    exact filled1_write rfl
  · rintro x ⟨h1, h2, h3⟩
    exact ⟨h1, fun j hj => h2 j ⟨j, hj, rfl⟩⟩

theorem wp_getRow {N : Nat} {A : Dense R} {a : Spec.Mat R} (hA : A.Rep N a) {i : Nat} (hi : i < N)
    (junk : Nat → R) :
    (A.getRow i junk).wp E (fun r => r.size = N ∧ ∀ j, j < N → r.get j = a i j) := by
  unfold getRow
  rw [hA.dim]
  refine wp_vecLoop _ fun j x hj hs => ?_
  rw [Arr.read_ok (show ROWMAJOR i j N N < _ by rw [hA.size]; exact addr_lt hi hj), Res.bind_ok,
    Arr.write_ok _ (by omega)]
  rw [show A.mat.get (ROWMAJOR i j N N) = a i j from hA.get i j hi hj]

theorem wp_getDiagonal {N : Nat} {A : Dense R} {a : Spec.Mat R} (hA : A.Rep N a)
    (junk : Nat → R) :
    (A.getDiagonal junk).wp E (fun r => r.size = N ∧ ∀ j, j < N → r.get j = a j j) := by
  unfold getDiagonal
  rw [hA.dim]
  refine wp_vecLoop (fun j => a j j) fun j x hj hs => ?_
  rw [Arr.read_ok (show ROWMAJOR j j N N < _ by rw [hA.size]; exact addr_lt hj hj), Res.bind_ok,
    Arr.write_ok _ (by omega)]
  rw [show A.mat.get (ROWMAJOR j j N N) = a j j from hA.get j j hj hj]

/-! ## Whole matrices, cell by cell -/

/-- All cells written by the sequential double loop. -/
theorem wp_matLoop {N : Nat} {x : Arr R} {f : Nat → Nat → Arr R → Res (Arr R)} (g : Spec.Mat R)
    (hf : ∀ i j x', i < N → j < N → x'.size = x.size →
      f i j x' = .ok ⟨x'.size, upd x'.get (i * N + j) (g i j)⟩) :
    (loop N x fun i x => loop N x fun j x => f i j x).wp E (fun r => r.size = x.size ∧
      ∀ i j, i < N → j < N → r.get (i * N + j) = g i j) := by
  refine Res.wp_mono (wp_fillLoop (fun i p => ∃ j, j < N ∧ p = i * N + j) (flat N g) ?_ ?_) ?_
  · rintro i i' p _ _ ⟨j, hj, rfl⟩ ⟨j', hj', he⟩
    exact (addr_inj hj hj' he).1
  · intro i x' hi hs _ _
    refine Res.wp_mono (wp_rowLoop (i := i) (fun j => g i j) ?_) ?_
    · intro j x'' hj hs' _
      exact hf i j x'' hi hj (hs'.trans hs)
    · rintro y ⟨h1, h2, h3⟩
      refine ⟨h1, ?_, h3⟩
      rintro p ⟨j, hj, rfl⟩
      rw [h2 _ ⟨j, hj, rfl⟩, flat_addr _ hj, flat_addr _ hj]
  · rintro r ⟨h1, h2, _⟩
    exact ⟨h1, fun i j hi hj => by rw [h2 _ ⟨i, hi, j, hj, rfl⟩, flat_addr _ hj]⟩

/-- All cells of the rows `lo ≤ i < hi` written by a row-parallel double loop. -/
theorem wp_rowsLoop {N lo hi : Nat} {sc : Sched} (hsc : IsSched lo hi sc) {x : Arr R}
    {f : Nat → Nat → Arr R → Res (Arr R)} (g : Spec.Mat R)
    (hf : ∀ i j x', lo ≤ i → i < hi → j < N → x'.size = x.size →
      f i j x' = .ok ⟨x'.size, upd x'.get (i * N + j) (g i j)⟩) :
    (forList sc x fun ti x => loop N x fun j x => f ti.2 j x).wp E (fun r => r.size = x.size ∧
      (∀ i j, j < N → r.get (i * N + j) = if lo ≤ i ∧ i < hi then g i j else
        x.get (i * N + j))) := by
  refine Res.wp_mono (wp_fill hsc (fun i p => ∃ j, j < N ∧ p = i * N + j) (flat N g) ?_ ?_) ?_
  · rintro i i' p _ _ _ _ ⟨j, hj, rfl⟩ ⟨j', hj', he⟩
    exact (addr_inj hj hj' he).1
  · intro t i x' hl hi hs _ _
    refine Res.wp_mono (wp_rowLoop (i := i) (fun j => g i j) ?_) ?_
    · intro j x'' hj hs' _
      exact hf i j x'' hl hi hj (hs'.trans hs)
    · rintro y ⟨h1, h2, h3⟩
      refine ⟨h1, ?_, h3⟩
      rintro p ⟨j, hj, rfl⟩
      rw [h2 _ ⟨j, hj, rfl⟩, flat_addr _ hj, flat_addr _ hj]
  · rintro r ⟨h1, h2, h3⟩
    refine ⟨h1, fun i j hj => ?_⟩
    by_cases h : lo ≤ i ∧ i < hi
    · rw [if_pos h, h2 i _ h.1 h.2 ⟨j, hj, rfl⟩, flat_addr _ hj]
    · rw [if_neg h, h3]
      rintro i' h1' h2' ⟨j', hj', he⟩
      exact h (by rw [(addr_inj hj hj' he).1]; exact ⟨h1', h2'⟩)

/-- A parallel loop over cells. -/
theorem wp_cellLoop {N lo hi : Nat} {sc : Sched} (hsc : IsSched (lo * N) (hi * N) sc) {x : Arr R}
    {f : Nat → Arr R → Res (Arr R)} (g : Nat → R → R)
    (hf : ∀ p x', lo * N ≤ p → p < hi * N → x'.size = x.size → x'.get p = x.get p →
      (f p x').wp E (Filled1 (fun q => q = p) (fun q => g q (x.get q)) x')) :
    (forList sc x fun ti x => f ti.2 x).wp E (fun r => r.size = x.size ∧
      (∀ i j, j < N → r.get (i * N + j) = if lo ≤ i ∧ i < hi then g (i * N + j) (x.get (i * N + j))
        else x.get (i * N + j))) := by
  refine Res.wp_mono (wp_fill hsc (fun i p => p = i) (fun p => g p (x.get p)) ?_ ?_) ?_
  · rintro i i' p _ _ _ _ rfl h; exact h
  · intro t p x' h1 h2 h3 h4 _
    exact hf p x' h1 h2 h3 (h4 p rfl)
  · rintro r ⟨h1, h2, h3⟩
    refine ⟨h1, fun i j hj => ?_⟩
    by_cases h : lo ≤ i ∧ i < hi
    · have := (addr_between (N := N) hj).2 h
      rw [if_pos h, h2 (i * N + j) _ this.1 this.2 rfl]
    · rw [if_neg h, h3]
      rintro p h1' h2' rfl
      exact h ((addr_between hj).1 ⟨h1', h2'⟩)

theorem wp_clear [Zero R] {N : Nat} {A : Dense R} {a : Spec.Mat R} (hA : A.Rep N a) :
    (clear A).wp E (fun A' => A'.Rep N Spec.zero ∧ ∀ p, p < N * N → A'.mat.get p = 0) := by
  unfold clear
  rw [Res.wp_bind]
  refine Res.wp_mono (wp_memset 0 (by rw [hA.size, hA.dim])) ?_
  rintro x ⟨h1, h2⟩
  rw [Res.wp_pure]
  have h3 : ∀ p, p < N * N → x.get p = 0 := fun p hp => by rw [h2, hA.dim, if_pos hp]
  exact ⟨⟨hA.dim, by rw [← hA.size]; exact h1, fun i j hi hj => h3 _ (addr_lt hi hj)⟩, h3⟩

theorem zero_rep [Zero R] (N : Nat) : (zeroMatrix N : Dense R).Rep N Spec.zero :=
  ⟨rfl, rfl, fun _ _ _ _ => rfl⟩

theorem wp_banded [Zero R] {N M : Nat} (rv : Nat → Nat → R) {sc : Sched} (hsc : IsSched 0 N sc) :
    (banded N M rv sc).wp E (fun A => A.Rep N (fun i j =>
      if i ≤ j + M / 2 ∧ j + M / 2 < i + M then rv i j else 0)) := by
  unfold banded
  rw [Res.wp_bind]
  have hb : ∀ i j, i < N → j < N → ((i - M / 2 ≤ j ∧
      j < if i + M ≤ N + M / 2 then i + M - M / 2 else N) ↔
      (i ≤ j + M / 2 ∧ j + M / 2 < i + M)) := by
    intro i j hi hj
    split <;> omega
  refine Res.wp_mono (wp_fill hsc (fun i p => ∃ j, (i - M / 2 ≤ j ∧
      j < if i + M ≤ N + M / 2 then i + M - M / 2 else N) ∧ p = i * N + j) (flat N rv) ?_ ?_) ?_
  · rintro i i' p _ hi _ hi' ⟨j, ⟨_, h2⟩, rfl⟩ ⟨j', ⟨_, h2'⟩, he⟩
    have hj : j < N := by split at h2 <;> omega
    have hj' : j' < N := by split at h2' <;> omega
    exact (addr_inj hj hj' he).1
  · intro t i x' _ hi hs _ _
    simp only
    refine Res.wp_mono (wp_fillFrom (fun j p => p = i * N + j) (flat N rv)
      (fun j j' p _ _ _ _ h1 h2 => by omega) ?_) ?_
    · intro j x'' h1 h2 h3 _ _
      have hj : j < N := by split at h2 <;> omega
      rw [Arr.wp_write]
      refine ⟨?_, filled1_write (flat_addr _ hj)⟩
      rw [h3, hs]; exact addr_lt hi hj
    · rintro y ⟨h1, h2, h3⟩
      refine ⟨h1, ?_, ?_⟩
      · rintro p ⟨j, ⟨g1, g2⟩, rfl⟩; exact h2 _ ⟨j, g1, g2, rfl⟩
      · rintro p hp; exact h3 p (fun ⟨j, g1, g2, g3⟩ => hp ⟨j, ⟨g1, g2⟩, g3⟩)
  · rintro x ⟨h1, h2, h3⟩
    rw [Res.wp_pure]
    refine ⟨rfl, h1, fun i j hi hj => ?_⟩
    simp only
    by_cases h : i ≤ j + M / 2 ∧ j + M / 2 < i + M
    · rw [if_pos h, h2 i _ (Nat.zero_le _) hi ⟨j, (hb i j hi hj).2 h, rfl⟩, flat_addr _ hj]
    · rw [if_neg h, h3]
      · rfl
      · rintro i' _ hi' ⟨j', hj', he⟩
        have hj'' : j' < N := by have := hj'.2; split at this <;> omega
        obtain ⟨rfl, rfl⟩ := addr_inj hj hj'' he
        exact h ((hb i j hi hj).1 hj')

theorem wp_random [Zero R] {N : Nat} (rv : Nat → Nat → R) :
    (random N rv).wp E (fun A => A.Rep N rv) := by
  unfold random
  rw [Res.wp_bind]
  refine Res.wp_mono (wp_matLoop rv ?_) ?_
  · intro i j x hi hj hs
    exact Arr.write_ok _ (by rw [hs]; exact addr_lt hi hj)
  · rintro x ⟨h1, h2⟩
    exact ⟨rfl, h1, h2⟩

theorem wp_identity [Zero R] [One R] {N : Nat} {sc : Sched} (hsc : IsSched 0 N sc) :
    (identity N sc : Res (Dense R)).wp E (fun A => A.Rep N Spec.one) := by
  unfold identity
  rw [Res.wp_bind]
  refine Res.wp_mono (wp_fill hsc (fun i p => p = i * N + i) (fun _ => 1) ?_ ?_) ?_
  · intro i j p _ hi _ hj h1 h2
    exact (addr_inj hi hj (h1.symm.trans h2)).1
  · intro t i x _ hi hs _ _
    rw [Arr.wp_write]
    exact ⟨by rw [hs]; exact addr_lt hi hi, filled1_write rfl⟩
  · rintro x ⟨h1, h2, h3⟩
    rw [Res.wp_pure]
    refine ⟨rfl, h1, fun i j hi hj => ?_⟩
    simp only [Spec.one]
    by_cases h : i = j
    · subst h; rw [if_pos rfl, h2 i _ (Nat.zero_le _) hi rfl]
    · rw [if_neg h, h3]
      · rfl
      · intro k _ hk he
        have := addr_inj hj hk he
        omega

/-! ## Copy, reorder, conversion -/

theorem wp_copyInto {N : Nat} {A B : Dense R} {a b : Spec.Mat R} (hA : A.Rep N a)
    (hB : B.Rep N b) : (copyInto A B).wp E (fun B' => B'.Rep N a) := by
  unfold copyInto
  rw [Res.wp_bind]
  refine Res.wp_mono (wp_copyRange (by rw [hA.size, hA.dim]; omega)
    (by rw [hB.size, hA.dim]; omega)) ?_
  rintro x ⟨h1, h2⟩
  rw [Res.wp_pure]
  refine ⟨hB.dim, by rw [← hB.size]; exact h1, fun i j hi hj => ?_⟩
  have := addr_lt hi hj
  simp only
  rw [h2, hA.dim, if_pos (by omega), ← hA.get i j hi hj]
  congr 1
  omega

theorem wp_copyNew {N : Nat} {A : Dense R} {a : Spec.Mat R} (hA : A.Rep N a) (junk : Nat → R) :
    (copyNew A junk).wp E (fun B => B.Rep N a) := by
  have h := wp_copyInto (E := E) hA (B := noinit A.N junk)
    (b := fun i j => junk (i * N + j)) (by rw [hA.dim]; exact ⟨rfl, rfl, fun _ _ _ _ => rfl⟩)
  unfold copyInto at h
  unfold copyNew
  exact h

/-- What `bml_reorder` computes: the columns are permuted (inversely), the rows stay. -/
theorem wp_reorder {N : Nat} {A : Dense R} {a : Spec.Mat R} (hA : A.Rep N a) {perm : Arr Nat}
    (hs : N ≤ perm.size) (hp : ∀ i, i < N → perm.get i < N)
    (hinj : ∀ i j, i < N → j < N → perm.get i = perm.get j → i = j) {sc1 sc2 : Sched}
    (h1 : IsSched 0 N sc1) (h2 : IsSched 0 N sc2) (junk : Nat → R) :
    (reorder A perm sc1 sc2 junk).wp E (fun A' => A'.Rep N (fun i j => a i (perm.get j))) := by
  unfold reorder
  rw [Res.wp_bind]
  refine Res.wp_mono (wp_copyNew hA junk) ?_
  intro B hB
  simp only [Res.wp_bind, hA.dim]
  refine Res.wp_mono (wp_fill h1 (fun i p => perm.get i * N ≤ p ∧ p < perm.get i * N + N)
    (fun p => B.mat.get (flat N (fun i j =>
      ((List.range N).find? (fun k => decide (perm.get k = i))).getD 0 * N + j) p)) ?_ ?_) ?_
  · rintro i i' p _ hi _ hi' ⟨g1, g2⟩ ⟨g3, g4⟩
    apply hinj i i' hi hi'
    obtain ⟨j, rfl⟩ := Nat.exists_eq_add_of_le g1
    obtain ⟨j', he⟩ := Nat.exists_eq_add_of_le g3
    exact (addr_inj (by omega) (by omega) he).1
  · intro t i x _ hi hx _ _
    rw [Arr.read_ok (by omega), Res.bind_ok]
    have q1 := addr_lt (k := N - 1) hi (by omega : N - 1 < N)
    have q2 := addr_lt (k := N - 1) (hp i hi) (by omega : N - 1 < N)
    refine Res.wp_mono (wp_copyRange ?_ ?_) ?_
    · rw [hB.size]; simp only [ROWMAJOR]; omega
    · rw [hx, hA.size]; simp only [ROWMAJOR]; omega
    · rintro y ⟨k1, k2⟩
      have k2 : ∀ p, y.get p = if perm.get i * N ≤ p ∧ p < perm.get i * N + N then
        B.mat.get (i * N + (p - perm.get i * N)) else x.get p := k2
      refine ⟨k1, ?_, ?_⟩
      · rintro p hpp
        rw [k2, if_pos hpp]
        obtain ⟨j, rfl⟩ := Nat.exists_eq_add_of_le hpp.1
        have hj : j < N := by omega
        congr 1
        rw [flat_addr _ hj, Nat.add_sub_cancel_left]
        have : (List.range N).find? (fun k => decide (perm.get k = perm.get i)) = some i := by
          cases hf : (List.range N).find? (fun k => decide (perm.get k = perm.get i)) with
          | none =>
            have := List.find?_eq_none.1 hf i (List.mem_range.2 hi)
            simp at this
          | some k =>
            have hk := List.find?_some hf
            have hm := List.mem_of_find?_eq_some hf
            rw [hinj k i (List.mem_range.1 hm) hi (by simpa using hk)]
        rw [this]; rfl
      · intro p hpp
        rw [k2, if_neg hpp]
  · rintro x ⟨g1, _, _⟩
    refine Res.wp_mono (wp_rowsLoop h2 (f := fun i j mat => do
        let p ← perm.read j
        let v ← B.mat.read (ROWMAJOR i p N N)
        mat.write (ROWMAJOR i j N N) v) (fun i j => a i (perm.get j)) ?_) ?_
    · intro i j x' _ hi hj hx'
      rw [Arr.read_ok (by omega), Res.bind_ok,
        Arr.read_ok (show ROWMAJOR i (perm.get j) N N < _ by
          rw [hB.size]; exact addr_lt hi (hp j hj)), Res.bind_ok]
      rw [show B.mat.get (ROWMAJOR i (perm.get j) N N) = a i (perm.get j) from
        hB.get i _ hi (hp j hj)]
      exact Arr.write_ok _ (by rw [hx', g1, hA.size]; exact addr_lt hi hj)
    · rintro y ⟨k1, k2⟩
      rw [Res.wp_pure]
      refine ⟨rfl, by rw [← hA.size, ← g1]; exact k1, fun i j hi hj => ?_⟩
      simp only
      rw [k2 i j hj, if_pos ⟨Nat.zero_le i, hi⟩]

theorem wp_convertFrom [Zero R] {N : Nat} {get : Nat → Nat → Res R} {a : Spec.Mat R}
    (hget : ∀ i j, i < N → j < N → get i j = .ok (a i j)) :
    (convertFrom get N).wp E (fun B => B.Rep N a) := by
  unfold convertFrom
  rw [Res.wp_bind]
  refine Res.wp_mono (wp_matLoop a ?_) ?_
  · intro i j x hi hj hs
    rw [hget i j hi hj, Res.bind_ok]
    exact Arr.write_ok _ (by rw [hs]; exact addr_lt hi hj)
  · rintro x ⟨h1, h2⟩
    exact ⟨rfl, h1, h2⟩

theorem wp_import [Zero R] {N : Nat} (order : Order) {D : Arr R} (hD : N * N ≤ D.size) :
    (importDense order N D).wp E (fun A => A.Rep N (fun i j => D.get (order.addr i j N))) := by
  cases order with
  | rowMajor =>
    simp only [importDense, Res.wp_bind]
    refine Res.wp_mono (wp_copyRange (by omega) (by simp [zeroMatrix])) ?_
    rintro x ⟨h1, h2⟩
    rw [Res.wp_pure]
    refine ⟨rfl, h1, fun i j hi hj => ?_⟩
    have := addr_lt hi hj
    simp only
    rw [h2, if_pos (by omega)]
    simp only [Order.addr, ROWMAJOR]
    congr 1
    omega
  | colMajor =>
    simp only [importDense, Res.wp_bind]
    refine Res.wp_mono (wp_matLoop (fun i j => D.get (Order.colMajor.addr i j N)) ?_) ?_
    · intro i j x hi hj hs
      have := addr_lt hj hi
      rw [Arr.read_ok (show COLMAJOR i j N N < _ by simp only [COLMAJOR]; omega), Res.bind_ok]
      exact Arr.write_ok _ (by rw [hs]; exact addr_lt hi hj)
    · rintro x ⟨h1, h2⟩
      exact ⟨rfl, h1, h2⟩

theorem wp_export {N : Nat} {A : Dense R} {a : Spec.Mat R} (hA : A.Rep N a) (order : Order)
    (junk : Nat → R) :
    (exportDense A order junk).wp E (fun D => D.size = N * N ∧
      ∀ i j, i < N → j < N → D.get (order.addr i j N) = a i j) := by
  cases order with
  | rowMajor =>
    simp only [exportDense, hA.dim]
    refine Res.wp_mono (wp_copyRange (by rw [hA.size]; omega) (by simp)) ?_
    rintro x ⟨h1, h2⟩
    refine ⟨h1, fun i j hi hj => ?_⟩
    have := addr_lt hi hj
    simp only [Order.addr, ROWMAJOR]
    rw [h2, if_pos (by omega), ← hA.get i j hi hj]
    congr 1
    omega
  | colMajor =>
    simp only [exportDense, hA.dim]
    refine Res.wp_mono (wp_fillLoop (fun i p => ∃ j, j < N ∧ p = j * N + i)
      (flat N fun j i => a i j) ?_ ?_) ?_
    · rintro i i' p hi hi' ⟨j, hj, rfl⟩ ⟨j', hj', he⟩
      exact (addr_inj hi hi' he).2
    · intro i x hi hs _ _
      refine Res.wp_mono (wp_fillLoop (fun j p => p = j * N + i)
        (flat N fun j i => a i j) ?_ ?_) ?_
      · intro j j' p _ _ h1 h2
        exact (addr_inj hi hi (h1.symm.trans h2)).1
      · intro j x' hj hs' _ _
        rw [Arr.read_ok (show ROWMAJOR i j N N < _ by rw [hA.size]; exact addr_lt hi hj),
          Res.bind_ok, Arr.wp_write]
        have h1 : COLMAJOR i j N N = j * N + i := by simp only [COLMAJOR]; omega
        rw [h1]
        refine ⟨by rw [hs', hs]; exact addr_lt hj hi, filled1_write ?_⟩
        rw [flat_addr _ hi]; exact (hA.get i j hi hj).symm
      · rintro y ⟨h1, h2, h3⟩
        exact ⟨h1, h2, h3⟩
    · rintro x ⟨h1, h2, _⟩
      refine ⟨h1, fun i j hi hj => ?_⟩
      have h : Order.colMajor.addr i j N = j * N + i := by
        simp only [Order.addr, COLMAJOR]; omega
      rw [h, h2 _ ⟨i, hi, j, hj, rfl⟩, flat_addr _ hi]

end Dense

end Bml
