import Verif.RequestIds.Model

/-!
# Property C13 with the wrap-around of the counter
-/

namespace Verif.RequestIds

/-- what the loop returns is not in the map -/
theorem nextId_fresh (M : Nat) (map : List Nat) : ∀ (f last id : Nat), nextId M map f last = some id → id ∉ map ∧ ∃ k, id = k % M := by
  intro f
  induction f with
  | zero => intro last id h; simp [nextId] at h
  | succ f ih =>
    intro last id h
    simp only [nextId] at h
    by_cases hm : (last + 1) % M ∈ map
    · rw [if_pos hm] at h; exact ih _ _ h
    · rw [if_neg hm] at h
      simp only [Option.some.injEq] at h
      subst h; exact ⟨hm, last + 1, rfl⟩

theorem nextId_none (M : Nat) (map : List Nat) (hM : 0 < M) : ∀ (f last : Nat), nextId M map f last = none →
    ∀ k, 0 < k → k ≤ f → (last + k) % M ∈ map := by
  intro f
  induction f with
  | zero => intro last _ k h1 h2; omega
  | succ f ih =>
    intro last h k h1 h2
    simp only [nextId] at h
    by_cases hm : (last + 1) % M ∈ map
    · rw [if_pos hm] at h
      by_cases hk : k = 1
      · subst hk; exact hm
      · have := ih _ h (k - 1) (by omega) (by omega)
        rw [Nat.mod_add_mod] at this
        have e : last + 1 + (k - 1) = last + k := by omega
        rw [e] at this; exact this
    · rw [if_neg hm] at h; simp at h

/-- **C13, the loop ends** as soon as any identity at all is free. -/
theorem C13_loop_ends (M : Nat) (map : List Nat) (last id : Nat) (hid : id < M) (hfree : id ∉ map) :
    (nextId M map M last).isSome := by
  cases h : nextId M map M last with
  | some _ => rfl
  | none =>
    exfalso
    -- the value `id` is reached after `M + id - last % M` steps (or `id - last % M`)
    have hall := nextId_none M map (by omega) M last h
    have hl : last % M < M := Nat.mod_lt _ (by omega)
    by_cases hlt : last % M < id
    · have := hall (id - last % M) (by omega) (by omega)
      have e : (last + (id - last % M)) % M = id := by
        rw [← Nat.mod_add_mod]
        have : last % M + (id - last % M) = id := by omega
        rw [this]; exact Nat.mod_eq_of_lt hid
      rw [e] at this; exact hfree this
    · have := hall (M + id - last % M) (by omega) (by omega)
      have e : (last + (M + id - last % M)) % M = id := by
        rw [← Nat.mod_add_mod]
        have : last % M + (M + id - last % M) = id + M := by omega
        rw [this, Nat.add_mod_right]; exact Nat.mod_eq_of_lt hid
      rw [e] at this; exact hfree this

/-- **C13 for the locality leader's own requests, however often the counter overflows.** In every history
of the locality, two requests that are pending at the same time in the leader's `request_map` have
different identities. -/
theorem C13_leader_requests_unique (M leader : Nat) (ops : List Op) (s : State)
    (h : run M leader ⟨0, []⟩ ops = some s) : (leaderMap leader s).Nodup := by
  have key : ∀ (ops : List Op) (s s' : State), (leaderMap leader s).Nodup → run M leader s ops = some s' →
      (leaderMap leader s').Nodup := by
    intro ops
    induction ops with
    | nil => intro s s' h he; simp only [run, Option.some.injEq] at he; subst he; exact h
    | cons op ops ih =>
      intro s s' h he
      simp only [run] at he
      cases op with
      | draw hd =>
        simp only [step] at he
        cases hn : nextId M (leaderMap leader s) M s.last with
        | none => rw [hn] at he; simp at he
        | some id =>
          rw [hn] at he
          refine ih _ s' ?_ he
          by_cases hh : hd = .req leader
          · subst hh
            have := (nextId_fresh M _ _ _ _ hn).1
            simp only [leaderMap, List.filter_cons, beq_self_eq_true, if_true, List.map_cons, List.nodup_cons]
            exact ⟨this, h⟩
          · have e : (hd == Holder.req leader) = false := by simp [hh]
            simp only [leaderMap, List.filter_cons, e, Bool.false_eq_true, if_false]
            exact h
      | done hd id =>
        simp only [step] at he
        refine ih _ s' ?_ he
        simp only [leaderMap]
        have hs : List.Sublist (s.used.erase (hd, id)) s.used := List.erase_sublist
        exact ((hs.filter _).map _).nodup h
  exact key ops ⟨0, []⟩ s (by simp [leaderMap]) h

/-- one round trip of a request by the leader's actors -/
def roundTrip (leader : Nat) (id : Nat) : List Op := [.draw (.req leader), .done (.req leader) id]

/-- `k` round trips, starting with identity `last + 1` -/
def roundTrips (leader M : Nat) : Nat → Nat → List Op
  | 0, _ => []
  | k + 1, last => roundTrip leader ((last + 1) % M) ++ roundTrips leader M k ((last + 1) % M)

theorem run_append (M leader : Nat) : ∀ (a b : List Op) (s : State), run M leader s (a ++ b) =
    (match run M leader s a with | none => none | some s' => run M leader s' b) := by
  intro a
  induction a with
  | nil => intro b s; rfl
  | cons op a ih =>
    intro b s
    simp only [List.cons_append, run]
    cases step M leader s op with
    | none => rfl
    | some s' => exact ih b s'

theorem run_roundTrips (M leader : Nat) (hM : 0 < M) : ∀ (k last : Nat) (used : List (Holder × Nat)),
    (∀ x ∈ used, x.1 ≠ .req leader) → run M leader ⟨last % M, used⟩ (roundTrips leader M k (last % M)) = some ⟨(last + k) % M, used⟩ := by
  intro k
  induction k with
  | zero => intro last used _; rfl
  | succ k ih =>
    intro last used hu
    have hmap : leaderMap leader ⟨last % M, used⟩ = [] := by
      simp only [leaderMap, List.map_eq_nil_iff, List.filter_eq_nil_iff]
      intro x hx; simp [hu x hx]
    have hn : nextId M [] M (last % M) = some ((last % M + 1) % M) := by
      obtain ⟨m, rfl⟩ : ∃ m, M = m + 1 := ⟨M - 1, by omega⟩
      simp [nextId]
    have e : (last % M + 1) % M = (last + 1) % M := Nat.mod_add_mod _ _ _
    simp only [roundTrips, roundTrip, List.cons_append, List.nil_append, run, step, hmap, hn, List.erase_cons_head]
    rw [e, ih (last + 1) used hu]
    have : last + 1 + k = last + (k + 1) := by omega
    rw [this]

/-- **C13 does not hold for timers** (nor for requests of nested supervisors, see below) once the counter
has overflowed, because only the leader's `request_map` is consulted: an actor starts a timer, `M - 1`
request round trips follow, and the next timer the actor starts has the identity of the first, which is
still pending. -/
theorem C13_timer_collision_counterexample (M leader a : Nat) (hM : 2 ≤ M) :
    ∃ ops s, run M leader ⟨0, []⟩ ops = some s ∧ s.used = [(.timer a, 1), (.timer a, 1)] := by
  refine ⟨[.draw (.timer a)] ++ (roundTrips leader M (M - 1) (1 % M) ++ [.draw (.timer a)]), ⟨1, [(.timer a, 1), (.timer a, 1)]⟩, ?_, rfl⟩
  have h1 : (1 : Nat) % M = 1 := Nat.mod_eq_of_lt (by omega)
  obtain ⟨m, rfl⟩ : ∃ m, M = m + 1 := ⟨M - 1, by omega⟩
  have hr := run_roundTrips (m + 1) leader (by omega) m 1 [(.timer a, 1)] (by simp)
  have h0 : (1 + m) % (m + 1) = 0 := by rw [Nat.add_comm]; exact Nat.mod_self _
  rw [h1, h0] at hr
  have hstart : run (m + 1) leader ⟨0, []⟩ [.draw (.timer a)] = some ⟨1, [(.timer a, 1)]⟩ := by
    simp [run, step, leaderMap, nextId, h1]
  rw [run_append, hstart]
  simp only
  rw [run_append, h1]
  simp only [Nat.add_sub_cancel]
  rw [hr]
  simp [run, step, leaderMap, nextId, h1]

/-- the same for the requests of a nested supervisor of the locality -/
theorem C13_nested_collision_counterexample (M leader sup : Nat) (hM : 2 ≤ M) (hs : sup ≠ leader) :
    ∃ ops s, run M leader ⟨0, []⟩ ops = some s ∧ s.used = [(.req sup, 1), (.req sup, 1)] := by
  refine ⟨[.draw (.req sup)] ++ (roundTrips leader M (M - 1) (1 % M) ++ [.draw (.req sup)]), ⟨1, [(.req sup, 1), (.req sup, 1)]⟩, ?_, rfl⟩
  have h1 : (1 : Nat) % M = 1 := Nat.mod_eq_of_lt (by omega)
  obtain ⟨m, rfl⟩ : ∃ m, M = m + 1 := ⟨M - 1, by omega⟩
  have hr := run_roundTrips (m + 1) leader (by omega) m 1 [(.req sup, 1)] (by simp [hs])
  have h0 : (1 + m) % (m + 1) = 0 := by rw [Nat.add_comm]; exact Nat.mod_self _
  rw [h1, h0] at hr
  have hb : (Holder.req sup == Holder.req leader) = false := by simp [hs]
  have hstart : run (m + 1) leader ⟨0, []⟩ [.draw (.req sup)] = some ⟨1, [(.req sup, 1)]⟩ := by
    simp [run, step, leaderMap, nextId, h1]
  rw [run_append, hstart]
  simp only
  rw [run_append, h1]
  simp only [Nat.add_sub_cancel]
  rw [hr]
  simp [run, step, leaderMap, nextId, h1, hs]

/-- a small counter (modulus 4): identity 1 is kept by a pending request of the leader across an overflow,
and is skipped -/
example : run 4 0 ⟨0, []⟩ ([.draw (.req 0)] ++ roundTrips 0 4 3 1 ++ [.draw (.req 0)]) = some ⟨2, [(.req 0, 2), (.req 0, 1)]⟩ := rfl

end Verif.RequestIds
