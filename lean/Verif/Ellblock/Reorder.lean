import Verif.Ellblock.Ops6
import Verif.Ellpack.Adjust
import Verif.Ellpack.Model2

/-!
# `bml_reorder` of block-ELLPACK matrices
-/

namespace Bml
namespace EllB

variable {R : Type}

/-- `bml_reorder_ellblock` 144-157, block row `ib` of the copy `B`.  A `memcpy` of no bytes with a NULL
pointer counts as undefined. -/
def reorderRow (perm : Arr Nat) (B : EllB R) (ib : Nat) (A : EllB R) : Res (EllB R) := do
  let p ← perm.read ib
  let ix ← copyRange B.indexb (ROWMAJOR ib 0 A.NB A.MB) A.indexb (ROWMAJOR p 0 A.NB A.MB) A.MB
  let count ← loop A.MB 0 fun jp c => do
    let jb ← B.indexb.read (ROWMAJOR ib jp A.NB A.MB)
    let b ← B.bsize.read jb
    pure (c + b)
  let bi ← B.bsize.read ib
  let src ← B.block (ROWMAJOR ib 0 A.NB A.MB)
  let dst ← A.block (ROWMAJOR p 0 A.NB A.MB)
  let b ← copyTo (bi * count) dst src
  let A ← { A with indexb := ix }.putBlock (ROWMAJOR p 0 A.NB A.MB) b
  let n ← B.nnzb.read ib
  A.setNnzb p n

/-- `bml_reorder_ellblock` (`bml_copy_ellblock_typed.c` 118-171).  `sc` is the order of the parallel
loop of `bml_copy_new`.  Not modelled: the release of the copy. -/
def reorder (g : Glob) (sc : Sched) (perm : Arr Nat) (A : EllB R) : Res (Glob × EllB R) := do
  let (g, B) ← copyMatrix g sc A
  let bs ← loop A.NB A.bsize fun i bs => do
    let p ← perm.read i
    let b ← B.bsize.read p
    bs.write i b
  let A ← loop A.NB { A with bsize := bs } fun ib A => reorderRow perm B ib A
  let A ← loop A.NB A fun ib A => do
    let n ← A.nnzb.read ib
    loop n A fun jp A => do
      let jb ← A.indexb.read (ROWMAJOR ib jp A.NB A.MB)
      let p ← perm.read jb
      A.setIndex (ROWMAJOR ib jp A.NB A.MB) p
  pure (g, A)

/-! ## The blocks of a copy have exactly their size -/

/-- Every block is as large as the block sizes say, and its address has been handed out. -/
structure Exact (B : EllB R) : Prop where
  size : ∀ k a b, k < B.NB * B.MB → B.ptr.get k = some a → B.heap a = some b →
    b.size = B.bsize.get (k / B.MB) * B.bsize.get (B.indexb.get k)
  below : ∀ k a, B.ptr.get k = some a → a < B.next

theorem Exact.alloc {B : EllB R} (h : B.Exact) {ib jp n : Nat} (hjp : jp < B.MB) {x : Arr R}
    (hn : n = x.size)
    (hx : n = B.bsize.get ib * B.bsize.get (B.indexb.get (ib * B.MB + jp))) :
    (B.alloc (ib * B.MB + jp) x).wlp fun B' => B'.Exact ∧ Same B B' ∧ B'.indexb = B.indexb := by
  unfold EllB.alloc
  rw [Res.wlp_bind]
  intro p hp
  unfold Arr.write at hp
  split at hp
  · cases hp
    refine Res.wlp_ok.2 ?_
    refine ⟨⟨?_, ?_⟩, ⟨rfl, rfl, rfl, rfl, rfl⟩, rfl⟩
    · intro k a b hk h1 h2
      simp only at h1 h2 hk ⊢
      by_cases hkk : k = ib * B.MB + jp
      · subst hkk
        rw [upd_same] at h1
        cases h1
        rw [upd_same] at h2
        cases h2
        have : (ib * B.MB + jp) / B.MB = ib := by
          rw [Nat.mul_comm, Nat.mul_add_div (by omega), Nat.div_eq_of_lt hjp, Nat.add_zero]
        rw [this, ← hx, hn]
      · rw [upd_ne _ _ hkk] at h1
        have := h.below k a h1
        rw [upd_ne _ _ (by omega)] at h2
        exact h.size k a b hk h1 h2
    · intro k a h1
      simp only at h1 ⊢
      by_cases hkk : k = ib * B.MB + jp
      · subst hkk
        rw [upd_same] at h1
        cases h1
        omega
      · rw [upd_ne _ _ hkk] at h1
        have := h.below k a h1
        omega
  · cases hp

theorem wlp_copyMatrix {A : EllB R} (hle : ∀ ib, ib < A.NB → A.nnzb.get ib ≤ A.MB)
    (hnz : A.nnzb.size = A.NB) {g : Glob} {sc : Sched} :
    (copyMatrix g sc A).wlp fun r => r.2.Exact := by
  unfold copyMatrix
  rw [Res.wlp_bind]
  rintro ⟨g', B⟩ hB
  have hw : (blockMatrix (R := R) g A.NB A.MB A.M A.bsize).wlp fun r =>
      (∀ k, r.2.ptr.get k = none) ∧ r.2.NB = A.NB ∧ r.2.MB = A.MB ∧
        r.2.bsize.get = A.bsize.get := by
    unfold blockMatrix
    split
    · exact Res.wlp_error
    split
    · exact Res.wlp_error
    rw [Res.wlp_bind]
    intro N _
    split
    · exact Res.wlp_error
    rw [Res.wlp_bind]
    intro bs hbs
    unfold copyNew at hbs
    split at hbs
    · cases hbs
      split
      · rw [Res.wlp_bind]
        exact fun g2 _ => Res.wlp_ok.2 ⟨fun _ => rfl, rfl, rfl, rfl⟩
      · exact Res.wlp_ok.2 ⟨fun _ => rfl, rfl, rfl, rfl⟩
    · cases hbs
  have hB' := hw _ hB
  obtain ⟨hE, hNB, hMB, hbs⟩ := hB'
  simp only
  rw [Res.wlp_bind]
  intro nz _
  rw [Res.wlp_bind]
  intro ix _
  rw [Res.wlp_bind]
  have hE0 : ({ B with nnzb := nz, indexb := ix } : EllB R).Exact := by
    refine ⟨?_, ?_⟩
    · intro k a b _ h1 _
      simp only at h1 hE
      rw [hE k] at h1
      cases h1
    · intro k a h1
      simp only at h1 hE
      rw [hE k] at h1
      cases h1
  refine Res.wlp_mono (wlp_forList (fun _ (B' : EllB R) => B'.Exact ∧ B'.NB = A.NB ∧ B'.MB = A.MB ∧
    B'.bsize.get = A.bsize.get) ⟨hE0, hNB, hMB, hbs⟩ ?_) (fun B' h => Res.wlp_ok.2 h.1)
  rintro _ ⟨t, ib⟩ B1 _ h1
  simp only
  rw [Res.wlp_bind]
  intro bi _
  split
  · exact Res.wlp_error
  split
  · exact Res.wlp_error
  rw [Res.wlp_bind]
  intro n hn
  have hn' : ib < A.NB ∧ n = A.nnzb.get ib := by
    unfold Arr.read at hn
    split at hn
    · cases hn; exact ⟨by omega, rfl⟩
    · cases hn
  refine wlp_loop (fun _ (B' : EllB R) => B'.Exact ∧ B'.NB = A.NB ∧ B'.MB = A.MB ∧
    B'.bsize.get = A.bsize.get) h1 ?_
  rintro jp hjp B2 ⟨h2, h3, h4, h5⟩
  rw [Res.wlp_bind]
  intro jb hjb
  have hjb' : jb = B2.indexb.get (ib * A.MB + jp) := by
    unfold Arr.read at hjb
    split at hjb
    · cases hjb; rfl
    · cases hjb
  split
  · exact Res.wlp_error
  rw [Res.wlp_bind]
  intro q _
  cases q with
  | some _ => exact Res.wlp_error
  | none =>
    simp only
    rw [Res.wlp_bind]
    intro ai hai
    rw [Res.wlp_bind]
    intro aj haj
    rw [Res.wlp_bind]
    intro src _
    rw [Res.wlp_bind]
    intro x hx
    have e1 : ai = A.bsize.get ib := by
      unfold Arr.read at hai
      split at hai
      · cases hai; rfl
      · cases hai
    have e2 : aj = A.bsize.get jb := by
      unfold Arr.read at haj
      split at haj
      · cases haj; rfl
      · cases haj
    have e3 : x.size = ai * aj := by
      unfold copyNew at hx
      split at hx
      · cases hx; rfl
      · cases hx
    have := h2.alloc (ib := ib) (jp := jp) (n := ai * aj) (x := x)
      (by have := hle ib hn'.1; omega) e3.symm (by rw [h4, h5, e1, e2, hjb'])
    rw [h4] at this
    refine Res.wlp_mono this ?_
    rintro B3 ⟨k1, k2, k3⟩
    exact ⟨k1, k2.NB.trans h3, k2.MB.trans h4, by rw [k2.bsize, h5]⟩

/-! ## Outcomes that are undefined, or normal with a property -/

/-- `r` is not an error, and if it is a normal result, `Q` holds of it. -/
def Und {α : Type} (r : Res α) (Q : α → Prop) : Prop := r = .ub ∨ ∃ a, r = .ok a ∧ Q a

theorem Und.bind {α β : Type} {r : Res α} {f : α → Res β} {P : α → Prop} {Q : β → Prop}
    (h : Und r P) (hf : ∀ a, P a → Und (f a) Q) : Und (r >>= f) Q := by
  rcases h with rfl | ⟨a, rfl, ha⟩
  · exact Or.inl rfl
  · exact hf a ha

theorem Und.loop {σ : Type} {n : Nat} {s : σ} {f : Nat → σ → Res σ} (I : Nat → σ → Prop)
    (h0 : I 0 s) (hs : ∀ k, k < n → ∀ s, I k s → Und (f k s) (I (k + 1))) :
    Und (loop n s f) (I n) := by
  induction n with
  | zero => exact Or.inr ⟨s, rfl, h0⟩
  | succ n ih =>
    unfold Bml.loop
    exact (ih fun k hk => hs k (by omega)).bind fun s hs' => hs n (by omega) s hs'

theorem Und.read {α : Type} (x : Arr α) (k : Nat) : Und (x.read k) fun v => v = x.get k ∧ k < x.size := by
  unfold Arr.read
  split
  · next h => exact Or.inr ⟨_, rfl, rfl, h⟩
  · exact Or.inl rfl

theorem Und.write {α : Type} (x : Arr α) (k : Nat) (v : α) : Und (x.write k v) fun _ => True := by
  unfold Arr.write
  split
  · exact Or.inr ⟨_, rfl, trivial⟩
  · exact Or.inl rfl

theorem Und.block (A : EllB R) (k : Nat) : Und (A.block k) fun b =>
    k < A.ptr.size ∧ ∃ a, A.ptr.get k = some a ∧ A.heap a = some b := by
  unfold EllB.block
  refine (Und.read A.ptr k).bind ?_
  rintro v ⟨rfl, hk⟩
  cases h1 : A.ptr.get k with
  | none => exact Or.inl rfl
  | some a =>
    simp only
    cases h2 : A.heap a with
    | none => exact Or.inl rfl
    | some b => exact Or.inr ⟨b, rfl, hk, a, rfl, h2⟩

/-- The rows of the copy cannot be moved: more is copied than the first block has. -/
theorem reorderRow_ub {A B : EllB R} (perm : Arr Nat) {ib : Nat} (hE : B.Exact)
    (hMB : A.MB = B.MB) (h2 : 2 ≤ B.MB) (hib : ib < B.NB) (hbs : B.bsize.size = B.NB)
    (hpos : ∀ k, k < B.NB → 0 < B.bsize.get k) : reorderRow perm B ib A = .ub := by
  have key : Und (reorderRow perm B ib A) fun _ => False := by
    unfold reorderRow
    refine (Und.read perm ib).bind fun p _ => ?_
    refine Und.bind (P := fun _ => True) ?_ fun ix _ => ?_
    · unfold copyRange
      refine Und.loop (fun _ _ => True) trivial fun k _ s _ => ?_
      exact (Und.read _ _).bind fun v _ => Und.write _ _ _
    refine Und.bind (P := fun c => B.bsize.get (B.indexb.get (ib * B.MB)) < c) ?_ fun count hc => ?_
    · have := Und.loop (n := A.MB) (s := 0) (f := fun jp c => do
        let jb ← B.indexb.read (ROWMAJOR ib jp A.NB A.MB)
        let b ← B.bsize.read jb
        pure (c + b)) (fun n c => (1 ≤ n → B.bsize.get (B.indexb.get (ib * B.MB)) ≤ c) ∧
          (2 ≤ n → B.bsize.get (B.indexb.get (ib * B.MB)) < c))
        ⟨fun h => absurd h (by omega), fun h => absurd h (by omega)⟩ ?_
      · rcases this with h | ⟨c, h, -, h'⟩
        · exact Or.inl h
        · exact Or.inr ⟨c, h, h' (by omega)⟩
      · rintro k hk c ⟨i1, i2⟩
        refine (Und.read _ _).bind ?_
        rintro jb ⟨rfl, -⟩
        refine (Und.read _ _).bind ?_
        rintro b ⟨rfl, hb⟩
        refine Or.inr ⟨_, rfl, fun _ => ?_, fun hk2 => ?_⟩
        · rcases Nat.eq_zero_or_pos k with rfl | hk0
          · simp only [ROWMAJOR, hMB, Nat.add_zero]
            omega
          · have := i1 hk0
            omega
        · have := i1 (by omega)
          have := hpos _ (by rw [← hbs]; exact hb)
          omega
    refine (Und.read _ _).bind ?_
    rintro bi ⟨rfl, -⟩
    refine (Und.block B _).bind ?_
    rintro src ⟨-, a, h3, h4⟩
    refine (Und.block A _).bind fun dst _ => ?_
    have hsz := hE.size (ib * B.MB) a src (by
      have := addr_lt hib (show 0 < B.MB by omega)
      omega) (by simpa only [ROWMAJOR, hMB, Nat.add_zero] using h3) h4
    have hdiv : ib * B.MB / B.MB = ib := Nat.mul_div_cancel _ (by omega)
    rw [hdiv] at hsz
    left
    unfold copyTo
    rw [if_neg]
    · rfl
    · rintro ⟨h5, -⟩
      rw [hsz] at h5
      have := Nat.le_of_mul_le_mul_left h5 (hpos ib hib)
      omega
  rcases key with h | ⟨_, _, h⟩
  · exact h
  · exact h.elim

end EllB
end Bml
