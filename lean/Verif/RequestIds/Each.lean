import Verif.RequestIds.Props
/-!
# Which identity is drawn (C13)
-/

namespace Verif.RequestIds

theorem nextId_next (M : Nat) (map : List Nat) : ∀ (f last id : Nat), nextId M map f last = some id →
    ∃ d, id = (last + d + 1) % M ∧ id ∉ map ∧ ∀ k, k < d → (last + k + 1) % M ∈ map
  | 0, _, _, h => by simp [nextId] at h
  | f + 1, last, id, h => by
    simp only [nextId] at h
    split at h
    · rename_i hm
      obtain ⟨d, e, hn, hk⟩ := nextId_next M map f _ id h
      have sh : ∀ j, ((last + 1) % M + j + 1) % M = (last + (j + 1) + 1) % M := fun j => by
        have : (last + 1) % M + j + 1 = (last + 1) % M + (j + 1) := by omega
        rw [this, Nat.mod_add_mod]
        congr 1; omega
      refine ⟨d + 1, by rw [e, sh], hn, fun k hlt => ?_⟩
      cases k with
      | zero => simpa using hm
      | succ k => rw [← sh]; exact hk k (by omega)
    · rename_i hm
      injection h with h
      subst h
      exact ⟨0, rfl, hm, fun k hk => by omega⟩

/-- **C13** The identity given to a request or to a timer is the next one after the last one given that no pending request of the leader has, and
it is recorded as given; the end of a use makes one identity free and touches no other. -/
theorem C13_drawn (M leader : Nat) (s t : State) (op : Op) (h : step M leader s op = some t) :
    match op with
    | .draw g => t.used = (g, t.last) :: s.used ∧ t.last ∉ leaderMap leader s ∧
        ∃ d, t.last = (s.last + d + 1) % M ∧ ∀ k, k < d → (s.last + k + 1) % M ∈ leaderMap leader s
    | .done g id => t.last = s.last ∧ t.used = s.used.erase (g, id) := by
  cases op with
  | draw g =>
    simp only [step] at h
    split at h
    · cases h
    · rename_i id hid
      injection h with h
      subst h
      obtain ⟨d, a, b, c⟩ := nextId_next M _ _ _ _ hid
      exact ⟨rfl, b, d, a, c⟩
  | done g id =>
    simp only [step] at h
    injection h with h
    subst h
    exact ⟨rfl, rfl⟩

/-- **C13** As long as the counter has not gone round, identities are never given twice, whatever uses them: in a history with fewer draws than
there are identities in which no draw is skipped, the identities given are `1, 2, 3, …`. -/
theorem C13_counts_up (M leader : Nat) : ∀ (gs : List Holder) (s : State), s.last + gs.length < M → (∀ id, s.last < id → id ∉ leaderMap leader s) →
    ∃ t, run M leader s (gs.map .draw) = some t ∧ t.last = s.last + gs.length ∧
      t.used = (gs.zipIdx.map (fun x => (x.1, s.last + x.2 + 1))).reverse ++ s.used
  | [], s, _, _ => ⟨s, rfl, rfl, by simp⟩
  | g :: gs, s, hM, hf => by
    simp at hM
    have hmod : (s.last + 1) % M = s.last + 1 := Nat.mod_eq_of_lt (by omega)
    have hn : nextId M (leaderMap leader s) M s.last = some (s.last + 1) := by
      cases M with
      | zero => omega
      | succ M => simp only [nextId, hmod, if_neg (hf (s.last + 1) (by omega))]
    have hst : step M leader s (.draw g) = some ⟨s.last + 1, (g, s.last + 1) :: s.used⟩ := by simp only [step, hn]
    obtain ⟨t, h1, h2, h3⟩ := C13_counts_up M leader gs ⟨s.last + 1, (g, s.last + 1) :: s.used⟩ (by dsimp only; omega) (by
      intro id hid
      dsimp only at hid
      intro hm
      simp only [leaderMap, List.filter_cons] at hm
      split at hm
      · simp only [List.map_cons, List.mem_cons] at hm
        rcases hm with hm | hm
        · omega
        · exact hf id (by omega) hm
      · exact hf id (by omega) hm)
    refine ⟨t, by simp only [List.map_cons, run, hst]; exact h1, by rw [h2]; simp; omega, ?_⟩
    rw [h3]
    simp only [List.zipIdx_cons, List.map_cons, List.reverse_cons, List.append_assoc, List.singleton_append, Nat.add_zero, Nat.zero_add]
    have e : gs.zipIdx.map (fun x => (x.1, s.last + 1 + x.2 + 1)) = (gs.zipIdx 1).map (fun x => (x.1, s.last + x.2 + 1)) := by
      rw [List.zipIdx_succ, List.map_map]
      apply List.map_congr_left
      intro x _
      simp only [Function.comp]
      congr 1; omega
    rw [e]

/-- three identities, one of them skipped because it is pending with the leader -/
example : (run 5 1 ⟨0, []⟩ [.draw (.req 1), .draw (.timer 7), .done (.timer 7) 2, .draw (.req 1), .draw (.req 2), .draw (.req 1)]).map (·.used) =
    some [(.req 1, 0), (.req 2, 4), (.req 1, 3), (.req 1, 1)] := by decide
example : (step 5 1 ⟨0, [(.req 1, 1), (.req 1, 2)]⟩ (.draw (.timer 3))).map (·.used) = some [(.timer 3, 3), (.req 1, 1), (.req 1, 2)] := by decide

end Verif.RequestIds
