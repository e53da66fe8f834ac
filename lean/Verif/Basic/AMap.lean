/-!
# Association lists

Stand-in for `std::unordered_map` / `boost::unordered_map`: a list of key/value pairs.  The order
of the list plays the role of the (unspecified) iteration order; no statement about lookups
depends on it.
-/

namespace Verif

/-- Association list, the model of `unordered_map<K, V>`. -/
abbrev AMap (K : Type) (V : Type) := List (K × V)

namespace AMap
variable {K V : Type} [DecidableEq K]

/-- `map.find(k)`; `none` is `end()`. -/
def find (m : AMap K V) (k : K) : Option V :=
  match m with
  | [] => none
  | (k', v) :: r => if k' = k then some v else find r k

/-- `map[k] = v`. -/
def set (m : AMap K V) (k : K) (v : V) : AMap K V :=
  match m with
  | [] => [(k, v)]
  | (k', v') :: r => if k' = k then (k, v) :: r else (k', v') :: set r k v

/-- `map.erase(k)`. -/
def erase (m : AMap K V) (k : K) : AMap K V := m.filter (fun p => decide (p.1 ≠ k))

/-- the keys in iteration order -/
def keys (m : AMap K V) : List K := m.map (·.1)

@[simp] theorem find_nil (k : K) : find ([] : AMap K V) k = none := rfl

theorem find_set (m : AMap K V) (k j : K) (v : V) :
    find (set m k v) j = if j = k then some v else find m j := by
  induction m with
  | nil => simp only [set, find]; grind
  | cons p r ih =>
    obtain ⟨k', v'⟩ := p
    simp only [set]
    split
    · simp only [find]; grind
    · simp only [find, ih]; grind

@[simp] theorem find_set_self (m : AMap K V) (k : K) (v : V) : find (set m k v) k = some v := by
  simp [find_set]

theorem find_set_ne (m : AMap K V) {k j : K} (v : V) (h : j ≠ k) :
    find (set m k v) j = find m j := by
  simp [find_set, h]

theorem find_erase (m : AMap K V) (k j : K) :
    find (erase m k) j = if j = k then none else find m j := by
  induction m with
  | nil => simp [erase, find]
  | cons p r ih =>
    obtain ⟨k', v'⟩ := p
    simp only [erase, List.filter_cons] at ih ⊢
    by_cases h : k' = k
    · simp only [h, ne_eq, not_true_eq_false, decide_false, Bool.false_eq_true, if_false, find]
      rw [ih]; grind
    · simp only [ne_eq, h, not_false_eq_true, decide_true, if_true, find]
      rw [ih]; grind

@[simp] theorem find_erase_self (m : AMap K V) (k : K) : find (erase m k) k = none := by
  simp [find_erase]

theorem find_erase_ne (m : AMap K V) {k j : K} (h : j ≠ k) :
    find (erase m k) j = find m j := by
  simp [find_erase, h]

/-- A map in which no key is found is empty. -/
theorem eq_nil_of_find (m : AMap K V) (h : ∀ k, find m k = none) : m = [] := by
  cases m with
  | nil => rfl
  | cons p r => have := h p.1; simp [find] at this

theorem find_eq_none_iff (m : AMap K V) (k : K) : find m k = none ↔ k ∉ keys m := by
  induction m with
  | nil => simp [keys]
  | cons p r ih =>
    obtain ⟨k', v'⟩ := p
    simp only [find, keys, List.map_cons, List.mem_cons] at ih ⊢
    split <;> grind

theorem mem_of_find {m : AMap K V} {k : K} {v : V} (h : find m k = some v) : (k, v) ∈ m := by
  induction m with
  | nil => simp [find] at h
  | cons p r ih =>
    obtain ⟨k', v'⟩ := p
    simp only [find] at h
    split at h <;> grind

theorem find_of_mem {m : AMap K V} (hn : (keys m).Nodup) {k : K} {v : V} (h : (k, v) ∈ m) :
    find m k = some v := by
  induction m with
  | nil => simp at h
  | cons p r ih =>
    obtain ⟨k', v'⟩ := p
    simp only [keys, List.map_cons, List.nodup_cons] at hn
    simp only [find]
    rcases List.mem_cons.1 h with h | h
    · grind
    · have : k ∈ r.map (·.1) := List.mem_map.2 ⟨(k, v), h, rfl⟩
      have : k' ≠ k := by grind
      simp [this, ih hn.2 h]

theorem keys_set_nodup (m : AMap K V) (k : K) (v : V) (h : (keys m).Nodup) :
    (keys (set m k v)).Nodup := by
  have hmem : ∀ (m : AMap K V) j, j ∈ keys (set m k v) ↔ (j = k ∨ j ∈ keys m) := by
    intro m j
    induction m with
    | nil => simp [set, keys]
    | cons p r ih =>
      obtain ⟨k', v'⟩ := p
      simp only [set]
      split
      · simp [keys]; grind
      · simp only [keys, List.map_cons, List.mem_cons] at ih ⊢; grind
  induction m with
  | nil => simp [set, keys]
  | cons p r ih =>
    obtain ⟨k', v'⟩ := p
    simp only [keys, List.map_cons, List.nodup_cons] at h
    simp only [set]
    split
    · simp only [keys, List.map_cons, List.nodup_cons]; grind
    · rename_i hne
      have := ih h.2
      simp only [keys, List.map_cons, List.nodup_cons] at this ⊢
      refine ⟨?_, this⟩
      intro hc
      have := (hmem r k').1 hc
      simp only [keys] at this; grind

theorem mem_keys_set (m : AMap K V) (k : K) (v : V) (j : K) :
    j ∈ keys (set m k v) ↔ (j = k ∨ j ∈ keys m) := by
  have h1 := find_eq_none_iff (set m k v) j
  have h2 := find_eq_none_iff m j
  rw [find_set] at h1
  grind

theorem mem_keys_erase (m : AMap K V) (k : K) (j : K) :
    j ∈ keys (erase m k) ↔ (j ≠ k ∧ j ∈ keys m) := by
  have h1 := find_eq_none_iff (erase m k) j
  have h2 := find_eq_none_iff m j
  rw [find_erase] at h1
  grind

theorem keys_erase_nodup (m : AMap K V) (k : K) (h : (keys m).Nodup) :
    (keys (erase m k)).Nodup := by
  unfold keys erase
  exact h.sublist (List.Sublist.map _ List.filter_sublist)

end AMap
end Verif
