import Verif.Basic

/-!
# Model of the CSR column hash table

`src/C-interface/csr/bml_allocate_csr.c`, lines 17-161, `csr/bml_types_csr.h`.  A slot pointer is an
index into the slot storage; `none` is `NULL`.
-/

namespace Bml

namespace Hash

/-- `csr_hash_slot_t`, `bml_types_csr.h` lines 18-26. -/
structure Slot where
  link : Option Nat
  key : Nat
  value : Nat
  deriving DecidableEq, Repr

/-- `csr_row_index_hash_t`, `bml_types_csr.h` lines 28-46.  `ptr` is `slot_ptr_`. -/
structure Table where
  space : Nat
  spaceMinus1 : Nat
  size : Nat
  slots : Arr (Option Nat)
  storage : Arr Slot
  ptr : Nat

/-- The static array in lines 24-27. -/
def powersof2 : List Nat :=
  [8, 16, 32, 64, 128, 256, 512, 1024, 2048, 4096, 8192, 16384, 32768, 65536, 131072, 262144]

/-- Line 28: `for (i = 1; lwr = (powersof2[i] * 2) / 3, lwr < alloc_size; i++);` on the rest of the
array; running past its end is `ub`. -/
def findSpace (allocSize : Nat) : List Nat → Res Nat
  | [] => .ub
  | p :: ps => if p * 2 / 3 < allocSize then findSpace allocSize ps else .ok p

/-- `csr_noinit_table`, lines 17-61.  `junk` is the content of the slot storage. -/
def newTable (tsize : Nat) (junk : Nat → Slot) : Res Table := do
  let allocSize := if 5 ≥ tsize then 5 else tsize
  let space ← findSpace allocSize (powersof2.drop 1)
  let slots ← loop space (⟨space, fun _ => some 0⟩ : Arr (Option Nat)) fun i s => s.write i none
  pure ⟨space, space - 1, 0, slots, ⟨space, junk⟩, 0⟩

/-- `hash_key_index`, `bml_types_csr.h` line 99. -/
def hashIndex (t : Table) (key : Nat) : Nat := key &&& t.spaceMinus1

/-- `csr_table_insert`, lines 70-100. -/
def insert (t : Table) (key : Nat) : Res Table := do
  let index := hashIndex t key
  let link ← t.slots.read index
  let storage ← t.storage.write t.ptr ⟨link, key, t.size⟩
  let slots ← t.slots.write index (some t.ptr)
  pure { t with slots := slots, storage := storage, size := t.size + 1, ptr := t.ptr + 1 }

/-- Lines 118-124: the walk along the links.  Running out of fuel (a cyclic list) is `ub`. -/
def chase (t : Table) (key : Nat) : Nat → Option Nat → Res (Option Nat)
  | _, none => .ok none
  | 0, some _ => .ub
  | fuel + 1, some p => do
    let s ← t.storage.read p
    if s.key = key then pure (some s.value) else chase t key fuel s.link

/-- `csr_table_lookup`, lines 109-126: the value found, `none` for `NULL`. -/
def lookup (t : Table) (key : Nat) : Res (Option Nat) := do
  let p ← t.slots.read (hashIndex t key)
  chase t key (t.storage.size + 1) p

/-- `csr_reset_table`, lines 150-161. -/
def reset (t : Table) : Res Table := do
  let slots ← loop t.space t.slots fun i s => s.write i none
  pure { t with slots := slots, size := 0, ptr := 0 }

/-! ## Proofs -/

variable {E : Prop}

/-- The largest `k < n` with `P k`. -/
def lastIdx (P : Nat → Prop) [DecidablePred P] : Nat → Option Nat
  | 0 => none
  | n + 1 => if P n then some n else lastIdx P n

theorem lastIdx_some {P : Nat → Prop} [DecidablePred P] {n k : Nat} (h : lastIdx P n = some k) :
    k < n ∧ P k ∧ ∀ j, k < j → j < n → ¬ P j := by
  induction n with
  | zero => simp [lastIdx] at h
  | succ n ih =>
    unfold lastIdx at h
    by_cases hp : P n
    · rw [if_pos hp] at h
      obtain rfl := Option.some.inj h
      exact ⟨by omega, hp, fun j h1 h2 => by omega⟩
    · rw [if_neg hp] at h
      obtain ⟨h1, h2, h3⟩ := ih h
      refine ⟨by omega, h2, fun j a b => ?_⟩
      by_cases hj : j = n
      · subst hj; exact hp
      · exact h3 j a (by omega)

theorem lastIdx_none {P : Nat → Prop} [DecidablePred P] {n : Nat} (h : lastIdx P n = none) :
    ∀ j, j < n → ¬ P j := by
  induction n with
  | zero => intro j hj; omega
  | succ n ih =>
    unfold lastIdx at h
    by_cases hp : P n
    · rw [if_pos hp] at h; simp at h
    · rw [if_neg hp] at h
      intro j hj
      by_cases hjn : j = n
      · subst hjn; exact hp
      · exact ih h j (by omega)

theorem lastIdx_skip {P : Nat → Prop} [DecidablePred P] {k n : Nat} (hk : k ≤ n)
    (h : ∀ j, k ≤ j → j < n → ¬ P j) : lastIdx P n = lastIdx P k := by
  induction n with
  | zero => have : k = 0 := by omega
            subst this; rfl
  | succ n ih =>
    by_cases he : k = n + 1
    · subst he; rfl
    · show (if P n then some n else lastIdx P n) = _
      rw [if_neg (h n (by omega) (by omega))]
      exact ih (by omega) (fun j a b => h j a (by omega))

theorem lastIdx_congr {P Q : Nat → Prop} [DecidablePred P] [DecidablePred Q] {n : Nat}
    (h : ∀ j, j < n → (P j ↔ Q j)) : lastIdx P n = lastIdx Q n := by
  induction n with
  | zero => rfl
  | succ n ih =>
    unfold lastIdx
    rw [ih (fun j hj => h j (by omega))]
    by_cases hp : P n
    · rw [if_pos hp, if_pos ((h n (by omega)).1 hp)]
    · rw [if_neg hp, if_neg (fun hq => hp ((h n (by omega)).2 hq))]

theorem lastIdx_succ (P : Nat → Prop) [DecidablePred P] (n : Nat) :
    lastIdx P (n + 1) = if P n then some n else lastIdx P n := rfl

/-- The table holds the keys `ks 0, …, ks (n-1)`, inserted in this order. -/
structure Inv (t : Table) (space n : Nat) (ks : Nat → Nat) : Prop where
  pos : 0 < space
  sp : t.space = space
  sp1 : t.spaceMinus1 = space - 1
  slotsSize : t.slots.size = space
  storageSize : t.storage.size = space
  le : n ≤ space
  size : t.size = n
  ptr : t.ptr = n
  slots : ∀ b, b < space → t.slots.get b = lastIdx (fun k => ks k &&& (space - 1) = b) n
  storage : ∀ k, k < n → t.storage.get k =
    ⟨lastIdx (fun k' => ks k' &&& (space - 1) = ks k &&& (space - 1)) k, ks k, k⟩

theorem Inv.hash_lt {t : Table} {space n : Nat} {ks : Nat → Nat} (h : Inv t space n ks) (key : Nat) :
    key &&& (space - 1) < space := by
  have h1 := h.pos
  have : key &&& (space - 1) ≤ space - 1 := Nat.and_le_right
  omega

theorem Inv.congr {t : Table} {space n : Nat} {ks ks' : Nat → Nat} (h : Inv t space n ks)
    (he : ∀ k, k < n → ks k = ks' k) : Inv t space n ks' := by
  refine ⟨h.pos, h.sp, h.sp1, h.slotsSize, h.storageSize, h.le, h.size, h.ptr, ?_, ?_⟩
  · intro b hb
    rw [h.slots b hb]
    exact lastIdx_congr (fun j hj => by rw [he j hj])
  · intro k hk
    rw [h.storage k hk]
    have := lastIdx_congr (n := k) (P := fun k' => ks k' &&& (space - 1) = ks k &&& (space - 1))
      (Q := fun k' => ks' k' &&& (space - 1) = ks' k &&& (space - 1))
      (fun j hj => by rw [he j (by omega), he k hk])
    rw [this, he k hk]

theorem Inv.insert {t : Table} {space n : Nat} {ks : Nat → Nat} (h : Inv t space n ks)
    (hn : n < space) (key : Nat) :
    (Hash.insert t key).wp E (fun t' => Inv t' space (n + 1) (upd ks n key)) := by
  have hl := h.hash_lt key
  unfold Hash.insert hashIndex
  rw [h.sp1]
  simp only
  rw [Arr.read_ok (by rw [h.slotsSize]; exact hl), Res.bind_ok,
    Arr.write_ok _ (by rw [h.storageSize, h.ptr]; exact hn), Res.bind_ok,
    Arr.write_ok _ (by rw [h.slotsSize]; exact hl), Res.bind_ok, Res.wp_pure]
  refine ⟨h.pos, h.sp, rfl, h.slotsSize, h.storageSize, hn, by simp only [h.size],
    by simp only [h.ptr], ?_, ?_⟩
  · intro b hb
    simp only [h.ptr]
    unfold lastIdx
    rw [upd_same]
    by_cases he : key &&& (space - 1) = b
    · rw [if_pos he, ← he, upd_same]
    · rw [if_neg he, upd_ne _ _ (Ne.symm he), h.slots b hb]
      exact lastIdx_congr (fun j hj => by rw [upd_ne _ _ (by omega)])
  · intro k hk
    simp only [h.ptr, h.size]
    by_cases hkn : k = n
    · subst hkn
      rw [upd_same, upd_same, h.slots _ hl]
      congr 1
      exact lastIdx_congr (fun j hj => by rw [upd_ne _ _ (by omega)])
    · rw [upd_ne _ _ hkn, upd_ne _ _ hkn, h.storage k (by omega)]
      congr 1
      exact lastIdx_congr (fun j hj => by rw [upd_ne _ _ (by omega)])

theorem Inv.chase {t : Table} {space n : Nat} {ks : Nat → Nat} (h : Inv t space n ks) (key : Nat) :
    ∀ fuel m, m ≤ n → m < fuel →
      Hash.chase t key fuel (lastIdx (fun k => ks k &&& (space - 1) = key &&& (space - 1)) m) =
        .ok (lastIdx (fun k => ks k = key) m) := by
  intro fuel
  induction fuel with
  | zero => intro m _ hm; omega
  | succ fuel ih =>
    intro m hmn hm
    cases hb : lastIdx (fun k => ks k &&& (space - 1) = key &&& (space - 1)) m with
    | none =>
      have := lastIdx_none hb
      rw [lastIdx_skip (P := fun k => ks k = key) (Nat.zero_le m)
        (fun j _ hj he => this j hj (by rw [he]))]
      rfl
    | some p =>
      obtain ⟨h1, h2, h3⟩ := lastIdx_some hb
      have hskip : lastIdx (fun k => ks k = key) m = lastIdx (fun k => ks k = key) (p + 1) :=
        lastIdx_skip (by omega) (fun j a b he => h3 j (by omega) b (by rw [he]))
      unfold Hash.chase
      rw [Arr.read_ok (by rw [h.storageSize]; have := h.le; omega), Res.bind_ok,
        h.storage p (by omega)]
      simp only
      rw [hskip, lastIdx_succ]
      by_cases he : ks p = key
      · rw [if_pos he, if_pos he]; rfl
      · rw [if_neg he, if_neg he, h2]
        exact ih p (by omega) (by omega)

theorem Inv.lookup {t : Table} {space n : Nat} {ks : Nat → Nat} (h : Inv t space n ks) (key : Nat) :
    Hash.lookup t key = .ok (lastIdx (fun k => ks k = key) n) := by
  have hl := h.hash_lt key
  unfold Hash.lookup hashIndex
  rw [h.sp1, Arr.read_ok (by rw [h.slotsSize]; exact hl), Res.bind_ok, h.slots _ hl]
  exact h.chase key _ n (le_refl n) (by rw [h.storageSize]; have := h.le; omega)

theorem wp_clear (space : Nat) (a : Arr (Option Nat)) (ha : a.size = space) :
    (loop space a fun i s => s.write i none).wp E
      (fun s => s.size = space ∧ ∀ b, b < space → s.get b = none) := by
  refine wp_loop' (fun n (s : Arr (Option Nat)) => s.size = space ∧ ∀ b, b < n → s.get b = none)
    ⟨ha, fun b hb => by omega⟩ ?_ (fun _ h => h)
  rintro n hn s ⟨h1, h2⟩
  rw [Arr.wp_write]
  refine ⟨by omega, h1, fun b hb => ?_⟩
  simp only
  by_cases he : b = n
  · rw [he, upd_same]
  · rw [upd_ne _ _ he]; exact h2 b (by omega)

theorem Inv.reset {t : Table} {space n : Nat} {ks : Nat → Nat} (h : Inv t space n ks)
    (ks' : Nat → Nat) : (Hash.reset t).wp E (fun t' => Inv t' space 0 ks') := by
  unfold Hash.reset
  rw [Res.wp_bind, h.sp]
  refine Res.wp_mono (wp_clear space t.slots h.slotsSize) ?_
  rintro s ⟨h1, h2⟩
  rw [Res.wp_pure]
  exact ⟨h.pos, rfl, h.sp1, h1, h.storageSize, Nat.zero_le _, rfl, rfl, h2,
    fun k hk => by omega⟩

theorem findSpace_ok {n : Nat} {l : List Nat} (h : ∃ p ∈ l, n ≤ p * 2 / 3) :
    ∃ p, findSpace n l = .ok p ∧ p ∈ l ∧ n ≤ p * 2 / 3 := by
  induction l with
  | nil => obtain ⟨p, hp, _⟩ := h; simp at hp
  | cons q l ih =>
    unfold findSpace
    by_cases hq : q * 2 / 3 < n
    · rw [if_pos hq]
      obtain ⟨p, hp, hn⟩ := h
      have : p ∈ l := by
        rcases List.mem_cons.1 hp with h | h
        · subst h; omega
        · exact h
      obtain ⟨p', e, h1, h2⟩ := ih ⟨p, this, hn⟩
      exact ⟨p', e, List.mem_cons_of_mem _ h1, h2⟩
    · rw [if_neg hq]
      exact ⟨q, rfl, by simp, by omega⟩

theorem findSpace_ub {n : Nat} {l : List Nat} (h : ∀ p ∈ l, p * 2 / 3 < n) :
    findSpace n l = .ub := by
  induction l with
  | nil => rfl
  | cons q l ih =>
    unfold findSpace
    rw [if_pos (h q (by simp))]
    exact ih (fun p hp => h p (by simp [hp]))

theorem newTable_ok {tsize : Nat} (ht : tsize ≤ 174762) (junk : Nat → Slot) (ks : Nat → Nat) :
    ∃ t space, newTable tsize junk = .ok t ∧ tsize ≤ space * 2 / 3 ∧ 5 ≤ space * 2 / 3 ∧
      Inv t space 0 ks := by
  obtain ⟨p, e, hp, hn⟩ := findSpace_ok (n := if 5 ≥ tsize then 5 else tsize)
    (l := powersof2.drop 1) ⟨262144, by decide, by split <;> omega⟩
  have hpos : 0 < p := by
    rcases Nat.eq_zero_or_pos p with h | h
    · subst h
      split at hn <;> omega
    · exact h
  obtain ⟨s, e2, h1, h2⟩ := Res.wp_exists (wp_clear (E := False) p ⟨p, fun _ => some 0⟩ rfl)
  refine ⟨⟨p, p - 1, 0, s, ⟨p, junk⟩, 0⟩, p, ?_, ?_, ?_,
    ⟨hpos, rfl, rfl, h1, rfl, Nat.zero_le _, rfl, rfl, h2, fun k hk => by omega⟩⟩
  · unfold newTable
    simp only
    rw [e, Res.bind_ok, e2, Res.bind_ok]; rfl
  · split at hn <;> omega
  · split at hn <;> omega

end Hash

end Bml
