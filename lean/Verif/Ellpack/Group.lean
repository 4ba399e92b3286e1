import Verif.Ellpack.Rows
import Verif.Ellpack.Submatrix
import Verif.Ellpack.Model4

/-!
# ELLPACK: the matrix of groups of rows

`bml_submatrix_ellpack_typed.c` lines 417-552.
-/

namespace Bml

namespace Ell

/-- One past the last node of group `i`. -/
def grpEnd (N ng : Nat) (h : Nat → Nat) (i : Nat) : Nat := if i + 1 = ng then N else h (i + 1) - 1

/-- `h` lists the 1-based first nodes of `ng` consecutive groups of the nodes `0..N-1`. -/
structure IsGroups (N ng : Nat) (h : Nat → Nat) : Prop where
  pos : 0 < ng
  first : h 0 = 1
  mono : ∀ i, i + 1 < ng → h i ≤ h (i + 1)
  last : h (ng - 1) ≤ N + 1

variable {N ng : Nat} {h : Nat → Nat}

theorem IsGroups.mono' (g : IsGroups N ng h) {i k : Nat} (hik : i ≤ k) (hk : k < ng) : h i ≤ h k := by
  induction k with
  | zero => have : i = 0 := by omega
            subst this; exact le_refl _
  | succ k ih =>
    by_cases he : i = k + 1
    · subst he; exact le_refl _
    · exact le_trans (ih (by omega) (by omega)) (g.mono k hk)

theorem IsGroups.one_le (g : IsGroups N ng h) {i : Nat} (hi : i < ng) : 1 ≤ h i := by
  rw [← g.first]; exact g.mono' (Nat.zero_le _) hi

theorem IsGroups.le_last (g : IsGroups N ng h) {i : Nat} (hi : i < ng) : h i ≤ N + 1 :=
  le_trans (g.mono' (by omega) (by omega)) g.last

theorem IsGroups.end_le (g : IsGroups N ng h) {i : Nat} (hi : i < ng) : grpEnd N ng h i ≤ N := by
  unfold grpEnd
  split
  · exact le_refl _
  · have := g.le_last (i := i + 1) (by omega); omega

theorem IsGroups.start_le_end (g : IsGroups N ng h) {i : Nat} (hi : i < ng) :
    h i - 1 ≤ grpEnd N ng h i := by
  unfold grpEnd
  split
  · have := g.le_last hi; omega
  · have := g.mono i (by omega); omega

theorem IsGroups.end_le_start (g : IsGroups N ng h) {i k : Nat} (hik : i < k) (hk : k < ng) :
    grpEnd N ng h i ≤ h k - 1 := by
  unfold grpEnd
  rw [if_neg (by omega)]
  have := g.mono' (i := i + 1) (k := k) (by omega) hk
  omega

/-- Node `j` belongs to group `i`. -/
def InGrp (N ng : Nat) (h : Nat → Nat) (i j : Nat) : Prop :=
  i < ng ∧ h i - 1 ≤ j ∧ j < grpEnd N ng h i

theorem IsGroups.unique (g : IsGroups N ng h) {i k j : Nat} (h1 : InGrp N ng h i j)
    (h2 : InGrp N ng h k j) : i = k := by
  obtain ⟨a1, a2, a3⟩ := h1
  obtain ⟨b1, b2, b3⟩ := h2
  rcases Nat.lt_trichotomy i k with hlt | he | hlt
  · have := g.end_le_start hlt b1; omega
  · exact he
  · have := g.end_le_start hlt a1; omega

theorem IsGroups.exists (g : IsGroups N ng h) {j : Nat} (hj : j < N) : ∃ i, InGrp N ng h i j := by
  have key : ∀ n, n < ng → j < grpEnd N ng h n → ∃ i, InGrp N ng h i j := by
    intro n
    induction n with
    | zero =>
      intro hn hj
      exact ⟨0, hn, by rw [g.first]; omega, hj⟩
    | succ n ih =>
      intro hn hj
      by_cases hlt : j < grpEnd N ng h n
      · exact ih (by omega) hlt
      · refine ⟨n + 1, hn, ?_, hj⟩
        have : grpEnd N ng h n = h (n + 1) - 1 := by unfold grpEnd; rw [if_neg (by omega)]
        omega
  refine key (ng - 1) (by have := g.pos; omega) ?_
  unfold grpEnd
  rw [if_pos (by have := g.pos; omega)]
  exact hj

variable {E : Prop}

/-- Reading the end of a group. -/
theorem read_end {hindex : Arr Nat} (hsz : ng ≤ hindex.size) {i : Nat} (hi : i < ng) :
    (if i + 1 = ng then pure N else do
      let h ← hindex.read (i + 1)
      pure (h - 1) : Res Nat) = .ok (grpEnd N ng hindex.get i) := by
  unfold grpEnd
  split
  · rfl
  · rw [Arr.read_ok (by omega)]; rfl

theorem wp_groupNodes {hindex : Arr Nat} (hsz : ng ≤ hindex.size) (g : IsGroups N ng hindex.get)
    (jh : Nat → Nat) :
    (groupNodes N hindex ng jh).wp E (fun hn => hn.size = N ∧
      ∀ i j, InGrp N ng hindex.get i j → hn.get j = i) := by
  unfold groupNodes
  refine wp_loop' (fun n hn => hn.size = N ∧ ∀ i j, i < n → InGrp N ng hindex.get i j → hn.get j = i)
    ⟨rfl, by omega⟩ ?_ (fun hn hh => ⟨hh.1, fun i j hij => hh.2 i j hij.1 hij⟩)
  rintro n hn hnode ⟨s1, s2⟩
  rw [read_end hsz hn, Res.bind_ok, Arr.read_ok (by omega), Res.bind_ok]
  refine wp_loopFrom (fun m hnode => hnode.size = N ∧
    (∀ i j, i < n → InGrp N ng hindex.get i j → hnode.get j = i) ∧
    ∀ j, hindex.get n - 1 ≤ j → j < m → hnode.get j = n) (g.start_le_end hn)
    ⟨s1, s2, by omega⟩ ?_ ?_
  · rintro m hm1 hm2 a ⟨t1, t2, t3⟩
    have := g.end_le hn
    rw [Arr.wp_write]
    refine ⟨by omega, t1, ?_, ?_⟩
    · intro i j hi hij
      simp only
      rw [upd_ne]
      · exact t2 i j hi hij
      · have := g.end_le_start hi hn
        have := hij.2.2
        omega
    · intro j hj1 hj2
      simp only
      by_cases he : j = m
      · subst he; simp
      · rw [upd_ne _ _ he]; exact t3 j hj1 (by omega)
  · rintro a ⟨t1, t2, t3⟩
    refine ⟨t1, fun i j hi hij => ?_⟩
    by_cases he : i = n
    · subst he; exact t3 j hij.2.1 hij.2.2
    · exact t2 i j (by omega) hij

variable {R : Type} [CommRing R]

/-- Row `kk` has an entry above the threshold in group `i`. -/
def SymLink (A : Ell R) (g : Nat → Nat) (big : R → Bool) (i kk : Nat) : Prop :=
  ∃ p ∈ A.row kk, g p.1 = i ∧ big p.2 = true

theorem wp_groupSym {A : Ell R} {a : Spec.Mat R} (hA : A.Rep N a) {hnode : Arr Nat}
    (hn : hnode.size = N) (big : R → Bool) (i : Nat) {kk : Nat} (hkk : kk < N) :
    ∀ fuel l, l + fuel = A.nnz.get kk →
      (groupSym A hnode big i kk l fuel).wp E (fun b => b = true ↔
        ∃ q, l ≤ q ∧ q < A.nnz.get kk ∧ hnode.get (A.idx.get (kk * A.M + q)) = i ∧
          big (A.val.get (kk * A.M + q)) = true) := by
  have hd := hA.dim
  have hle := hA.le _ hkk
  intro fuel
  induction fuel with
  | zero =>
    intro l hl
    show (false = true) ↔ _
    simp only [Bool.false_eq_true, false_iff]
    rintro ⟨q, h1, h2, _⟩
    omega
  | succ fuel ih =>
    intro l hl
    unfold groupSym
    have hc : A.idx.get (kk * A.M + l) < N :=
      (hA.rowSat hkk).2.1.2 _ (mem_rowPre.2 ⟨l, by omega, rfl⟩)
    rw [read_idx hA.shape (by omega) (by omega), Res.bind_ok, Arr.read_ok (by omega), Res.bind_ok]
    have hrest : ¬ (hnode.get (A.idx.get (kk * A.M + l)) = i ∧
        big (A.val.get (kk * A.M + l)) = true) →
        (groupSym A hnode big i kk (l + 1) fuel).wp E (fun b => b = true ↔
        ∃ q, l ≤ q ∧ q < A.nnz.get kk ∧ hnode.get (A.idx.get (kk * A.M + q)) = i ∧
          big (A.val.get (kk * A.M + q)) = true) := by
      intro hno
      refine Res.wp_mono (ih (l + 1) (by omega)) ?_
      intro b hb
      rw [hb]
      constructor
      · rintro ⟨q, h1, h2⟩; exact ⟨q, by omega, h2⟩
      · rintro ⟨q, h1, h2⟩
        refine ⟨q, ?_, h2⟩
        rcases Nat.lt_or_ge l q with hlt | hge
        · exact hlt
        · have : q = l := by omega
          subst this
          exact absurd ⟨h2.2.1, h2.2.2⟩ hno
    by_cases he : hnode.get (A.idx.get (kk * A.M + l)) = i
    · rw [if_pos he, read_val hA.shape (by omega) (by omega), Res.bind_ok]
      by_cases hb : big (A.val.get (kk * A.M + l)) = true
      · rw [if_pos hb]
        simp only [Res.pure_eq, Res.wp_ok, true_iff]
        exact ⟨l, le_refl _, by omega, he, hb⟩
      · rw [if_neg hb]
        exact hrest (fun hh => hb hh.2)
    · rw [if_neg he]
      exact hrest (fun hh => he hh.1)

/-- A row of ones in the columns `cs`. -/
def ones (cs : List Nat) : SRow R := cs.map (fun c => (c, 1))

theorem ones_length (cs : List Nat) : (ones cs : SRow R).length = cs.length := by simp [ones]

/-- The entry `p` of a row of group `i` links to group `c`. -/
def LinkAt (A : Ell R) (g : Nat → Nat) (big : R → Bool) (i : Nat) (p : Nat × R) (c : Nat) : Prop :=
  g p.1 = c ∧ c ≠ i ∧ (big p.2 = true ∨ SymLink A g big i p.1)

/-- The columns found so far for row `i`, when `V` are the links seen so far and `mark0` the groups
marked before. -/
structure GrpInv (B : Ell R) (ix : Arr Nat) (ng i : Nat) (cf : Nat → List Nat) (cs : List Nat)
    (mark0 V : Nat → Prop) : Prop where
  rows : Rows B ng ng (fun r => ones (upd cf i cs r))
  szi : ix.size = ng
  nodup : cs.Nodup
  lt : ∀ c ∈ cs, c < ng
  mem : ∀ c, c ∈ cs ↔ c = i ∨ (¬ mark0 c ∧ V c)
  mark : ∀ c, c < ng → (ix.get c = 0 ↔ ¬ mark0 c ∧ c ∉ cs)

theorem GrpInv.congr {B : Ell R} {ix : Arr Nat} {i : Nat} {cf : Nat → List Nat} {cs : List Nat}
    {mark0 V V' : Nat → Prop} (hI : GrpInv B ix ng i cf cs mark0 V)
    (hV : ∀ c, ¬ mark0 c → c ≠ i → (V c ↔ V' c)) :
    GrpInv B ix ng i cf cs mark0 V' := by
  refine ⟨hI.rows, hI.szi, hI.nodup, hI.lt, fun c => ?_, hI.mark⟩
  rw [hI.mem]
  by_cases hc : c = i
  · simp [hc]
  · refine or_congr_right (and_congr_right fun h => hV c h hc)

theorem list_length_le {cs : List Nat} (hn : cs.Nodup) (hl : ∀ c ∈ cs, c < ng) : cs.length ≤ ng := by
  have h2 : cs.toFinset ⊆ Finset.range ng := by
    intro a ha
    simp only [List.mem_toFinset] at ha
    simpa using hl a ha
  have h3 := Finset.card_le_card h2
  rw [List.toFinset_card_of_nodup hn] at h3
  simpa using h3

/-- The step for one stored entry. -/
theorem wp_groupEntry {A : Ell R} {a : Spec.Mat R} (hA : A.Rep N a) {hnode : Arr Nat}
    (hn : hnode.size = N) (hg : ∀ j, j < N → hnode.get j < ng) (big : R → Bool) {i j k : Nat}
    (hi : i < ng) (hj : j < N) (hk : k < A.nnz.get j) {B : Ell R} {ix : Arr Nat}
    {cf : Nat → List Nat} {cs : List Nat} {mark0 V : Nat → Prop}
    (hI : GrpInv B ix ng i cf cs mark0 V) :
    (do
      let kk ← A.idx.read (ROWMAJOR j k A.N A.M)
      let ii ← hnode.read kk
      let t ← ix.read ii
      if t = 0 ∧ ii ≠ i then do
        let v ← A.val.read (ROWMAJOR j k A.N A.M)
        let add ← (if big v then pure true else do
          let m ← A.nnz.read kk
          groupSym A hnode big i kk 0 m)
        if add then do
          let ix ← ix.write ii (i + 1)
          let p ← B.nnz.read i
          let B ← B.putEntry i p ii 1
          let B ← B.setNnz i (p + 1)
          pure (B, ix)
        else pure (B, ix)
      else pure (B, ix) : Res (Ell R × Arr Nat)).wp E (fun st => ∃ cs',
        GrpInv st.1 st.2 ng i cf cs' mark0 (fun c => V c ∨ LinkAt A hnode.get big i
          (A.idx.get (j * A.M + k), A.val.get (j * A.M + k)) c)) := by
  have hd := hA.dim
  have hle := hA.le _ hj
  have hc : A.idx.get (j * A.M + k) < N :=
    (hA.rowSat hj).2.1.2 _ (mem_rowPre.2 ⟨k, hk, rfl⟩)
  have hgc := hg _ hc
  rw [read_idx hA.shape (by omega) (by omega), Res.bind_ok, Arr.read_ok (by omega), Res.bind_ok,
    Arr.read_ok (by rw [hI.szi]; exact hgc), Res.bind_ok]
  set kk := A.idx.get (j * A.M + k) with hkk
  set ii := hnode.get kk with hii
  by_cases hcond : ix.get ii = 0 ∧ ii ≠ i
  · rw [if_pos hcond, read_val hA.shape (by omega) (by omega), Res.bind_ok]
    obtain ⟨hm0, hnot⟩ := (hI.mark ii hgc).1 hcond.1
    set v := A.val.get (j * A.M + k) with hv
    rw [Res.wp_bind]
    have hadd : (if big v = true then pure true else do
          let m ← A.nnz.read kk
          groupSym A hnode big i kk 0 m : Res Bool).wp E (fun b => b = true ↔
            LinkAt A hnode.get big i (kk, v) ii) := by
      by_cases hb : big v = true
      · rw [if_pos hb]
        simp only [Res.pure_eq, Res.wp_ok, true_iff]
        exact ⟨rfl, hcond.2, Or.inl hb⟩
      · rw [if_neg hb, read_nnz hA.shape (by omega), Res.bind_ok]
        refine Res.wp_mono (wp_groupSym hA hn big i hc _ _ (by omega)) ?_
        intro b hb'
        rw [hb']
        constructor
        · rintro ⟨q, _, h2, h3, h4⟩
          exact ⟨rfl, hcond.2, Or.inr ⟨_, mem_rowPre.2 ⟨q, h2, rfl⟩, h3, h4⟩⟩
        · rintro ⟨_, _, h3 | ⟨p, hp, h4, h5⟩⟩
          · exact absurd h3 hb
          · obtain ⟨q, hq, rfl⟩ := mem_rowPre.1 hp
            exact ⟨q, Nat.zero_le _, hq, h4, h5⟩
    refine Res.wp_mono hadd ?_
    intro b hb
    cases hbb : b with
    | false =>
      have hno : ¬ LinkAt A hnode.get big i (kk, v) ii := by
        rw [← hb, hbb]; simp
      rw [if_neg (by simp)]
      simp only [Res.pure_eq, Res.wp_ok]
      refine ⟨cs, hI.congr fun c _ _ => ?_⟩
      constructor
      · exact Or.inl
      · rintro (h1 | h1)
        · exact h1
        · exfalso
          have := h1.1
          simp only [← hii] at this
          subst this
          exact hno h1
    | true =>
      have hyes : LinkAt A hnode.get big i (kk, v) ii := by rw [← hb, hbb]
      rw [if_pos rfl, Arr.write_ok _ (by rw [hI.szi]; exact hgc), Res.bind_ok]
      have hlen : cs.length < ng := by
        have := list_length_le (ng := ng) (cs := cs ++ [ii])
          (by
            rw [List.nodup_append]
            exact ⟨hI.nodup, by simp, fun x hx y hy => by
              simp at hy; subst hy; rintro rfl; exact hnot hx⟩)
          (by
            intro c hcm
            rcases List.mem_append.1 hcm with h1 | h1
            · exact hI.lt c h1
            · simp at h1; subst h1; exact hgc)
        simp only [List.length_append, List.length_singleton] at this
        omega
      have hLi : (ones (upd cf i cs i) : SRow R).length = cs.length := by
        rw [upd_same, ones_length]
      rw [hI.rows.read_nnz hi, Res.bind_ok]
      have hrun := hI.rows.app_run hi (by rw [hLi]; exact hlen) ii (1 : R)
      have hres : (do
          let B ← B.putEntry i (ones (upd cf i cs i) : SRow R).length ii 1
          let B ← B.setNnz i ((ones (upd cf i cs i) : SRow R).length + 1)
          pure (B, (⟨ix.size, upd ix.get ii (i + 1)⟩ : Arr Nat)) : Res (Ell R × Arr Nat)) =
          .ok (B.app i ii 1, ⟨ix.size, upd ix.get ii (i + 1)⟩) := by
        cases hp : B.putEntry i (ones (upd cf i cs i) : SRow R).length ii 1 with
        | ok B1 =>
          rw [hp, Res.bind_ok] at hrun
          rw [Res.bind_ok, hrun]
          rfl
        | error => rw [hp] at hrun; cases hrun
        | ub => rw [hp] at hrun; cases hrun
      have hres' := hres
      refine Res.wp_of_eq hres' ?_
      refine ⟨cs ++ [ii], ?_, hI.szi, ?_, ?_, ?_, ?_⟩
      · refine (hI.rows.app hi (by rw [hLi]; exact hlen) _ _).congr (fun r hr => ?_)
        by_cases h : r = i
        · subst h; simp [ones]
        · simp only [upd_ne _ _ h]
      · rw [List.nodup_append]
        exact ⟨hI.nodup, by simp, fun x hx y hy => by
          simp at hy; subst hy; rintro rfl; exact hnot hx⟩
      · intro c hcm
        rcases List.mem_append.1 hcm with h1 | h1
        · exact hI.lt c h1
        · simp at h1; subst h1; exact hgc
      · intro c
        rw [List.mem_append, hI.mem, List.mem_singleton]
        constructor
        · rintro ((h1 | h1) | h1)
          · exact Or.inl h1
          · exact Or.inr ⟨h1.1, Or.inl h1.2⟩
          · subst h1; exact Or.inr ⟨hm0, Or.inr hyes⟩
        · rintro (h1 | ⟨h1, h2 | h2⟩)
          · exact Or.inl (Or.inl h1)
          · exact Or.inl (Or.inr ⟨h1, h2⟩)
          · exact Or.inr h2.1.symm
      · intro c hcl
        simp only
        by_cases he : c = ii
        · subst he; simp
        · rw [upd_ne _ _ he, hI.mark c hcl]
          simp [he]
  · rw [if_neg hcond]
    simp only [Res.pure_eq, Res.wp_ok]
    refine ⟨cs, hI.nodup |> fun _ => ⟨hI.rows, hI.szi, hI.nodup, hI.lt, fun c => ?_, hI.mark⟩⟩
    rw [hI.mem]
    constructor
    · rintro (h1 | h1)
      · exact Or.inl h1
      · exact Or.inr ⟨h1.1, Or.inl h1.2⟩
    · rintro (h1 | ⟨h1, h2 | h2⟩)
      · exact Or.inl h1
      · exact Or.inr ⟨h1, h2⟩
      · by_cases hci : c = i
        · exact Or.inl hci
        · have hce : ii = c := h2.1
          have hix : ix.get c ≠ 0 := by
            intro h0
            exact hcond ⟨by rw [hce]; exact h0, by rw [hce]; exact hci⟩
          have := (hI.mark c (by rw [← hce]; exact hgc)).not.1 hix
          have hmem : c ∈ cs := by
            by_contra hno
            exact this ⟨h1, hno⟩
          exact (hI.mem c).1 hmem

/-- Group `i` is linked to group `c`. -/
def LinkRows (A : Ell R) (g : Nat → Nat) (big : R → Bool) (lo hi i c : Nat) : Prop :=
  ∃ j, lo ≤ j ∧ j < hi ∧ ∃ p ∈ A.row j, LinkAt A g big i p c

theorem wp_groupRow {A : Ell R} {a : Spec.Mat R} (hA : A.Rep N a) {hindex : Arr Nat}
    (hsz : ng ≤ hindex.size) (g : IsGroups N ng hindex.get) {hnode : Arr Nat}
    (hn : hnode.size = N) (hg : ∀ j, j < N → hnode.get j < ng) (big : R → Bool) {i : Nat}
    (hi : i < ng) {B : Ell R} {ix : Arr Nat} {cf : Nat → List Nat}
    (hB : Rows B ng ng (fun r => ones (cf r))) (he : cf i = []) (hix : ix.size = ng) :
    (groupRow A hindex hnode big i B ix).wp E (fun st => ∃ cs,
      GrpInv st.1 st.2 ng i cf cs (fun c => ix.get c ≠ 0)
        (LinkRows A hnode.get big (hindex.get i - 1) (grpEnd N ng hindex.get i) i)) := by
  have hd := hA.dim
  unfold groupRow
  rw [Arr.write_ok _ (by omega), Res.bind_ok]
  have hLi : (ones (cf i) : SRow R).length = 0 := by rw [he]; rfl
  have hrun := hB.app_run hi (by rw [hLi]; omega) i (1 : R)
  rw [hLi] at hrun
  have hd' : B.N = ng := hB.dim
  rw [putEntry_eq hB.shape _ _ (by omega) (by rw [hB.wid]; omega), Res.bind_ok] at hrun ⊢
  rw [hrun, Res.bind_ok]
  have hdim : (B.app i i (1 : R)).N = ng := hB.dim
  rw [hdim, hd, read_end hsz hi, Res.bind_ok, Arr.read_ok (by omega), Res.bind_ok]
  have hinit : GrpInv (B.app i i (1 : R)) ⟨ix.size, upd ix.get i (i + 1)⟩ ng i cf [i]
      (fun c => ix.get c ≠ 0)
      (LinkRows A hnode.get big (hindex.get i - 1) (hindex.get i - 1) i) := by
    refine ⟨?_, hix, by simp, by simp [hi], ?_, ?_⟩
    · refine (hB.app hi (by rw [hLi]; omega) _ _).congr (fun r hr => ?_)
      by_cases h : r = i
      · subst h; simp [ones, he]
      · simp only [upd_ne _ _ h]
    · intro c
      simp only [List.mem_singleton]
      constructor
      · exact Or.inl
      · rintro (h1 | ⟨_, j, h1, h2, _⟩)
        · exact h1
        · omega
    · intro c hc
      simp only [List.mem_singleton, ne_eq, not_not]
      by_cases h : c = i
      · subst h; simp
      · rw [upd_ne _ _ h]; simp [h]
  refine wp_loopFrom (fun m st => ∃ cs, GrpInv st.1 st.2 ng i cf cs (fun c => ix.get c ≠ 0)
      (LinkRows A hnode.get big (hindex.get i - 1) m i)) (g.start_le_end hi) ⟨[i], hinit⟩ ?_
    (fun _ h => h)
  rintro j hj1 hj2 ⟨B1, ix1⟩ ⟨cs1, hI1⟩
  have hjN : j < N := lt_of_lt_of_le hj2 (g.end_le hi)
  rw [read_nnz hA.shape (by omega), Res.bind_ok]
  refine wp_loop' (fun n (st : Ell R × Arr Nat) => ∃ cs, GrpInv st.1 st.2 ng i cf cs
      (fun c => ix.get c ≠ 0)
      (fun c => LinkRows A hnode.get big (hindex.get i - 1) j i c ∨
        ∃ p ∈ A.rowPre j n, LinkAt A hnode.get big i p c)) ?_ ?_ ?_
  · refine ⟨cs1, hI1.congr fun c _ _ => ?_⟩
    simp [rowPre]
  · rintro n hn' ⟨B2, ix2⟩ ⟨cs2, hI2⟩
    refine Res.wp_mono (wp_groupEntry hA hn hg big hi hjN hn' hI2) ?_
    rintro ⟨B3, ix3⟩ ⟨cs3, hI3⟩
    refine ⟨cs3, hI3.congr fun c _ _ => ?_⟩
    rw [rowPre_succ, or_assoc]
    refine or_congr_right ?_
    simp only [List.mem_append, List.mem_singleton]
    constructor
    · rintro (⟨p, hp, hl⟩ | hl)
      · exact ⟨p, Or.inl hp, hl⟩
      · exact ⟨_, Or.inr rfl, hl⟩
    · rintro ⟨p, hp | hp, hl⟩
      · exact Or.inl ⟨p, hp, hl⟩
      · subst hp; exact Or.inr hl
  · rintro ⟨B4, ix4⟩ ⟨cs4, hI4⟩
    refine ⟨cs4, hI4.congr fun c _ _ => ?_⟩
    constructor
    · rintro (⟨j', h1, h2, h3⟩ | ⟨p, hp, hl⟩)
      · exact ⟨j', h1, by omega, h3⟩
      · exact ⟨j, hj1, by omega, p, hp, hl⟩
    · rintro ⟨j', h1, h2, p, hp, hl⟩
      by_cases he : j' = j
      · subst he; exact Or.inr ⟨p, hp, hl⟩
      · exact Or.inl ⟨j', h1, by omega, p, hp, hl⟩

/-- What `groupMatrix` finds for the rows: `cf i` are the columns of row `i`. -/
structure GrpRows (ng : Nat) (link : Nat → Nat → Prop) (sc : Sched) (cf : Nat → List Nat) : Prop where
  none : ∀ r, r ∉ sc.map Prod.snd → cf r = []
  nodup : ∀ r, (cf r).Nodup
  lt : ∀ r, ∀ c ∈ cf r, c < ng
  mem : ∀ p t i q, sc = p ++ (t, i) :: q → ∀ c,
    c ∈ cf i ↔ c = i ∨ (link i c ∧ ∀ i', (t, i') ∈ p → c ∉ cf i')

theorem wp_groupMatrix {A : Ell R} {a : Spec.Mat R} (hA : A.Rep N a) {hindex : Arr Nat}
    (hsz : ng ≤ hindex.size) (g : IsGroups N ng hindex.get) (big : R → Bool) {sc : Sched}
    (hsc : IsSched 0 ng sc) (jv : Nat → R) (ji jh : Nat → Nat) :
    (groupMatrix A hindex ng big sc jv ji jh).wp E (fun B => ∃ (cf : Nat → List Nat) (gr : Nat → Nat),
      Rows B ng ng (fun r => ones (cf r)) ∧
      (∀ i j, InGrp N ng hindex.get i j → gr j = i) ∧
      GrpRows ng (fun i => LinkRows A gr big (hindex.get i - 1) (grpEnd N ng hindex.get i) i) sc
        cf) := by
  unfold groupMatrix
  rw [Res.wp_bind, hA.dim]
  refine Res.wp_mono (wp_groupNodes hsz g jh) ?_
  rintro hnode ⟨hn, hgrp⟩
  have hg : ∀ j, j < N → hnode.get j < ng := by
    intro j hj
    obtain ⟨i, hi⟩ := g.exists hj
    rw [hgrp i j hi]; exact hi.1
  rw [Res.wp_bind]
  refine wp_forList (fun pre st => ∃ cf : Nat → List Nat,
    Rows st.1 ng ng (fun r => ones (cf r)) ∧
    (∀ t, (st.2 t).size = ng ∧ ∀ c, c < ng →
      ((st.2 t).get c = 0 ↔ ∀ i', (t, i') ∈ pre → c ∉ cf i')) ∧
    GrpRows ng (fun i => LinkRows A hnode.get big (hindex.get i - 1)
      (grpEnd N ng hindex.get i) i) pre cf) ?_ ?_ ?_
  · refine ⟨fun _ => [], ⟨⟨rfl, rfl, rfl⟩, rfl, rfl, fun r hr => Nat.zero_le _, fun r hr => rfl⟩,
      fun t => ⟨rfl, by simp⟩, ⟨fun _ _ => rfl, by simp, by simp, ?_⟩⟩
    intro p t i q h
    simp at h
  · rintro pre ⟨t, i⟩ post hl ⟨B, ixs⟩ ⟨cf, hB, hix, hG⟩
    have hmem := (hsc.mem i).1 (by rw [hl]; simp)
    have hnot : i ∉ pre.map Prod.snd := by
      have hnd := hsc.nodup
      rw [hl, List.map_append, List.map_cons, List.nodup_append] at hnd
      intro hin
      exact hnd.2.2 i hin i (by simp) rfl
    simp only
    rw [Res.wp_bind]
    refine Res.wp_mono (wp_groupRow hA hsz g hn hg big hmem.2 hB (hG.none i hnot) (hix t).1) ?_
    rintro ⟨B', ix'⟩ ⟨cs, hI⟩
    simp only [Res.pure_eq, Res.wp_ok]
    have hne : ∀ t' i', (t', i') ∈ pre → i' ≠ i := by
      rintro t' i' hm rfl
      exact hnot (List.mem_map.2 ⟨_, hm, rfl⟩)
    have hold : ∀ t' i', (t', i') ∈ pre → upd cf i cs i' = cf i' :=
      fun t' i' hm => upd_ne _ _ (hne t' i' hm)
    have hmark : ∀ c, c < ng → ((ixs t).get c ≠ 0 ↔ ¬ ∀ i', (t, i') ∈ pre → c ∉ cf i') :=
      fun c hc => ((hix t).2 c hc).not
    refine ⟨upd cf i cs, hI.rows, ?_, ?_⟩
    · intro t'
      by_cases ht : t' = t
      · subst ht
        rw [upd_same]
        refine ⟨hI.szi, fun c hc => ?_⟩
        rw [hI.mark c hc, not_not, (hix t').2 c hc]
        constructor
        · rintro ⟨h1, h2⟩ i' hm
          rcases List.mem_append.1 hm with hm | hm
          · rw [hold t' i' hm]; exact h1 i' hm
          · simp only [List.mem_singleton, Prod.mk.injEq, true_and] at hm
            subst hm; rw [upd_same]; exact h2
        · intro h1
          refine ⟨fun i' hm => ?_, ?_⟩
          · rw [← hold t' i' hm]; exact h1 i' (List.mem_append_left _ hm)
          · have := h1 i (by simp)
            rwa [upd_same] at this
      · rw [upd_ne _ _ ht]
        refine ⟨(hix t').1, fun c hc => ?_⟩
        rw [(hix t').2 c hc]
        constructor
        · intro h1 i' hm
          rcases List.mem_append.1 hm with hm | hm
          · rw [hold t' i' hm]; exact h1 i' hm
          · simp only [List.mem_singleton, Prod.mk.injEq] at hm
            exact absurd hm.1 ht
        · intro h1 i' hm
          rw [← hold t' i' hm]; exact h1 i' (List.mem_append_left _ hm)
    · refine ⟨?_, ?_, ?_, ?_⟩
      · intro r hr
        simp only [List.map_append, List.map_cons, List.map_nil, List.mem_append,
          List.mem_singleton, not_or] at hr
        rw [upd_ne _ _ hr.2]
        exact hG.none r hr.1
      · intro r
        by_cases h : r = i
        · subst h; rw [upd_same]; exact hI.nodup
        · rw [upd_ne _ _ h]; exact hG.nodup r
      · intro r
        by_cases h : r = i
        · subst h; rw [upd_same]; exact hI.lt
        · rw [upd_ne _ _ h]; exact hG.lt r
      · intro p t' i1 q hs c
        rcases List.eq_nil_or_concat q with hq | ⟨q', x, hq⟩
        · subst hq
          have h2 := List.append_inj' hs rfl
          obtain ⟨rfl, h3⟩ := h2
          simp only [List.cons.injEq, Prod.mk.injEq, and_true] at h3
          obtain ⟨rfl, rfl⟩ := h3
          rw [upd_same, hI.mem]
          by_cases hci : c = i
          · simp [hci]
          · refine or_congr_right ?_
            constructor
            · rintro ⟨h1, h2⟩
              refine ⟨h2, fun i' hm => ?_⟩
              rw [hold t i' hm]
              obtain ⟨j, g1, g2, p', hp', hl'⟩ := h2
              have hclt : c < ng := by
                rw [← hl'.1]
                apply hg
                have hjN : j < N := lt_of_lt_of_le g2 (g.end_le hmem.2)
                exact (hA.rowSat hjN).2.1.2 _ hp'
              rw [not_not, (hix t).2 c hclt] at h1
              exact h1 i' hm
            · rintro ⟨h1, h2⟩
              refine ⟨?_, h1⟩
              obtain ⟨j, g1, g2, p', hp', hl'⟩ := h1
              have hclt : c < ng := by
                rw [← hl'.1]
                apply hg
                have hjN : j < N := lt_of_lt_of_le g2 (g.end_le hmem.2)
                exact (hA.rowSat hjN).2.1.2 _ hp'
              rw [not_not, (hix t).2 c hclt]
              intro i' hm
              rw [← hold t i' hm]
              exact h2 i' hm
        · subst hq
          have hs' : pre ++ [(t, i)] = (p ++ (t', i1) :: q') ++ [x] := by simpa using hs
          obtain ⟨hpre, hx⟩ := List.append_inj' hs' rfl
          have hm1 : (t', i1) ∈ pre := by rw [hpre]; simp
          rw [hold t' i1 hm1, hG.mem p t' i1 q' hpre c]
          refine or_congr_right (and_congr_right fun _ => ?_)
          constructor
          · intro h1 i' hm
            rw [hold t' i' (by rw [hpre]; exact List.mem_append_left _ hm)]
            exact h1 i' hm
          · intro h1 i' hm
            rw [← hold t' i' (by rw [hpre]; exact List.mem_append_left _ hm)]
            exact h1 i' hm
  · rintro ⟨B, ixs⟩ ⟨cf, hB, _, hG⟩
    exact ⟨cf, hnode.get, hB, hgrp, hG⟩

end Ell

end Bml
