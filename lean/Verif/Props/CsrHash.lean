import Verif.Csr.Hash

/-!
# Property theorems: the CSR column hash table (C26)
-/

namespace Bml.Props

open Bml Bml.Hash

/-- The operations that change a table. -/
inductive HashOp where
  | insert (key : Nat)
  | reset

/-- Execute a history. -/
def HashOp.run (t : Table) : List HashOp → Res Table
  | [] => .ok t
  | .insert k :: ops => do
    let t ← Hash.insert t k
    HashOp.run t ops
  | .reset :: ops => do
    let t ← Hash.reset t
    HashOp.run t ops

/-- The keys inserted since the last reset, in order. -/
def Spec.keys (ks : List Nat) : List HashOp → List Nat
  | [] => ks
  | .insert k :: ops => Spec.keys (ks ++ [k]) ops
  | .reset :: ops => Spec.keys [] ops

/-- No more than `cap` insertions between two resets. -/
def Spec.keysFit (cap : Nat) (ks : List Nat) : List HashOp → Prop
  | [] => True
  | .insert k :: ops => ks.length < cap ∧ Spec.keysFit cap (ks ++ [k]) ops
  | .reset :: ops => Spec.keysFit cap [] ops

theorem hash_run_inv {space : Nat} (ops : List HashOp) :
    ∀ (t : Table) (ks : List Nat), Inv t space ks.length (fun k => ks.getD k 0) →
      Spec.keysFit space ks ops →
      ∃ t', HashOp.run t ops = .ok t' ∧
        Inv t' space (Spec.keys ks ops).length (fun k => (Spec.keys ks ops).getD k 0) := by
  induction ops with
  | nil => intro t ks h _; exact ⟨t, rfl, h⟩
  | cons op ops ih =>
    intro t ks h hf
    cases op with
    | insert k =>
      obtain ⟨hlt, hf⟩ := hf
      obtain ⟨t1, e, h1⟩ := Res.wp_exists (h.insert (E := False) hlt k)
      have h2 : Inv t1 space (ks ++ [k]).length (fun j => (ks ++ [k]).getD j 0) := by
        rw [List.length_append]
        refine h1.congr (fun j hj => ?_)
        by_cases hjn : j = ks.length
        · subst hjn; rw [upd_same]; simp
        · rw [upd_ne _ _ hjn]
          have hj' : j < ks.length + 1 := hj
          rw [List.getD_eq_getElem?_getD, List.getD_eq_getElem?_getD, List.getElem?_append_left (by omega)]
      obtain ⟨t', e', h'⟩ := ih t1 (ks ++ [k]) h2 hf
      exact ⟨t', by unfold HashOp.run; rw [e, Res.bind_ok, e'], h'⟩
    | reset =>
      obtain ⟨t1, e, h1⟩ := Res.wp_exists (h.reset (E := False) (fun k => ([] : List Nat).getD k 0))
      obtain ⟨t', e', h'⟩ := ih t1 [] h1 hf
      exact ⟨t', by unfold HashOp.run; rw [e, Res.bind_ok, e'], h'⟩

/-- **C26.**  A table made for up to `tsize ≤ 174762` columns has room for at least `tsize` (and at
least five) keys; after every history of inserts and resets that never holds more than the room,
looking up any key gives the number (counted from 0 since the last reset) of its most recent
insertion, and `NULL` if it has not been inserted since the last reset.  No access is out of
bounds. -/
theorem C26_hash_table {tsize : Nat} (ht : tsize ≤ 174762) (junk : Nat → Slot) :
    ∃ t space, newTable tsize junk = .ok t ∧ tsize ≤ space ∧ 5 ≤ space ∧
      ∀ ops : List HashOp, Spec.keysFit space [] ops →
        ∃ t', HashOp.run t ops = .ok t' ∧ ∀ key,
          ∃ r, lookup t' key = .ok r ∧
            (∀ v, r = some v ↔ ((Spec.keys [] ops)[v]? = some key ∧
              ∀ w, v < w → (Spec.keys [] ops)[w]? ≠ some key)) ∧
            (r = none ↔ key ∉ Spec.keys [] ops) := by
  obtain ⟨t, space, e, h1, h2, h⟩ := newTable_ok ht junk (fun k => ([] : List Nat).getD k 0)
  refine ⟨t, space, e, by omega, by omega, fun ops hf => ?_⟩
  obtain ⟨t', e', h'⟩ := hash_run_inv ops t [] h hf
  refine ⟨t', e', fun key => ⟨_, h'.lookup key, ?_⟩⟩
  have hget : ∀ j, j < (Spec.keys [] ops).length →
      ((Spec.keys [] ops)[j]? = some key ↔ (Spec.keys [] ops).getD j 0 = key) := by
    intro j hj
    rw [List.getD_eq_getElem?_getD, List.getElem?_eq_getElem hj]
    simp
  have hnone : ∀ {r}, lastIdx (fun k => (Spec.keys [] ops).getD k 0 = key)
      (Spec.keys [] ops).length = r → (r = none ↔ key ∉ Spec.keys [] ops) := by
    rintro r rfl
    constructor
    · intro hn hm
      obtain ⟨j, hj, hje⟩ := List.mem_iff_getElem.1 hm
      exact lastIdx_none hn j hj ((hget j hj).1 (by rw [List.getElem?_eq_getElem hj, hje]))
    · intro hm
      cases hc : lastIdx (fun k => (Spec.keys [] ops).getD k 0 = key) (Spec.keys [] ops).length with
      | none => rfl
      | some v =>
        obtain ⟨a, b, _⟩ := lastIdx_some hc
        exact absurd (List.mem_of_getElem? ((hget v a).2 b)) hm
  refine ⟨fun v => ⟨fun hv => ?_, fun hv => ?_⟩, hnone rfl⟩
  · obtain ⟨a, b, c⟩ := lastIdx_some hv
    refine ⟨(hget v a).2 b, fun w hw hwe => ?_⟩
    obtain ⟨hwl, _⟩ := List.getElem?_eq_some_iff.1 hwe
    exact c w hw hwl ((hget w hwl).1 hwe)
  · obtain ⟨hvl, _⟩ := List.getElem?_eq_some_iff.1 hv.1
    cases hc : lastIdx (fun k => (Spec.keys [] ops).getD k 0 = key) (Spec.keys [] ops).length with
    | none => exact absurd ((hget v hvl).1 hv.1) (lastIdx_none hc v hvl)
    | some u =>
      obtain ⟨a, b, c⟩ := lastIdx_some hc
      congr 1
      by_contra hne
      rcases Nat.lt_or_gt_of_ne hne with h | h
      · exact c v h hvl ((hget v hvl).1 hv.1)
      · exact hv.2 u h ((hget u a).2 b)

/-- **C26**: larger tables are not supported; the search for the size runs past the end of the
static array of sizes. -/
theorem C26_too_large {tsize : Nat} (ht : 174762 < tsize) (junk : Nat → Slot) :
    newTable tsize junk = .ub := by
  unfold newTable
  simp only
  rw [if_neg (by omega), findSpace_ub]
  · rfl
  · intro p hp
    have : ∀ p ∈ powersof2.drop 1, p * 2 / 3 ≤ 174762 := by decide
    have := this p hp
    omega

/-- The room is exactly the number of slots: one more insertion is out of bounds. -/
theorem C26_full {t : Table} {space : Nat} {ks : Nat → Nat} (h : Inv t space space ks) (key : Nat) :
    Hash.insert t key = .ub := by
  have hl := h.hash_lt key
  unfold Hash.insert hashIndex
  rw [h.sp1]
  simp only
  rw [Arr.read_ok (by rw [h.slotsSize]; exact hl), Res.bind_ok,
    Arr.write_ub _ (by rw [h.storageSize, h.ptr])]
  rfl

/-- Keys 3 and 19 collide in a table of 16 slots; 3 is inserted twice. -/
example : Spec.keysFit 16 [] [.insert 7, .reset, .insert 3, .insert 19, .insert 3] ∧
    (do let t ← newTable 4 (fun _ => ⟨none, 0, 0⟩)
        let t ← HashOp.run t [.insert 7, .reset, .insert 3, .insert 19, .insert 3]
        let a ← lookup t 3
        let b ← lookup t 19
        let c ← lookup t 7
        pure (a, b, c)) = .ok (some 2, some 1, none) := by
  refine ⟨⟨by decide, by decide, by decide, by decide, trivial⟩, by decide⟩

end Bml.Props
