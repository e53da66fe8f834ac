import Verif.Routing.Props

/-!
# C08: who has the message, and what the steps do
-/

namespace Verif.Routing

/-- `s'`, the state after the operation, given that it is possible in `s` -/
def Effect (s s' : State) : Op → Prop
  | .wrap => ∀ h ∈ s.holders, h.id = 0 → h.phase = .busy →
      ∃ i, .start i ∉ s.log ∧ s'.log = .start i :: s.log ∧ s'.holders = s.holders ++ [⟨i, .busy, true⟩]
  | .capture k => ∀ h ∈ s.holders, h.id = k → h.phase = .busy →
      ∃ i, .start i ∉ s.log ∧ s'.log = .start i :: s.log ∧ s'.holders = s.holders ++ [⟨i, .busy, false⟩]
  | .dropCaptured i => ∀ h ∈ s.holders, h.id = i → h.checks = false →
      s'.log = .finish i :: s.log ∧ ∀ x, x ∈ s'.holders ↔ x ∈ s.holders ∧ x.id ≠ i
  | .finish i => ∀ h ∈ s.holders, h.id = i → h.phase = .busy → h.checks = true →
      s'.log = .finish i :: s.log ∧ ∀ x, x ∈ s'.holders ↔ (x ∈ s.holders ∧ x.id ≠ i) ∨ x = { h with phase := .done }
  | .load i => ∀ h ∈ s.holders, h.id = i → h.phase = .done →
      s'.log = s.log ∧ ∀ x, x ∈ s'.holders ↔ (x ∈ s.holders ∧ x.id ≠ i) ∨ x = { h with phase := .saw s.count }
  | .act i => ∀ h ∈ s.holders, h.id = i → ∀ n, h.phase = .saw n →
      (∀ x, x ∈ s'.holders ↔ x ∈ s.holders ∧ x.id ≠ i) ∧ (n = 1 → s'.log = .hop i :: s.log) ∧ (n ≠ 1 → s'.log = s.log)

theorem get_of_mem {s : State} (hi : Inv s) {h : Holder} (hm : h ∈ s.holders) : get s.holders h.id = some h := by
  cases hg : get s.holders h.id with
  | none =>
    simp only [get, List.find?_eq_none, decide_eq_true_eq] at hg
    exact absurd rfl (hg h hm)
  | some h' => rw [uniq hi.nodup (get_mem hg).1 hm (get_mem hg).2]

theorem mem_setPhase_iff {s : State} (hi : Inv s) {h : Holder} (hm : h ∈ s.holders) (p : Phase) (x : Holder) :
    x ∈ setPhase s.holders h.id p ↔ (x ∈ s.holders ∧ x.id ≠ h.id) ∨ x = { h with phase := p } := by
  constructor
  · intro hx
    rcases mem_setPhase hx with h3 | ⟨h0, h3, h4, rfl⟩
    · exact .inl h3
    · rw [uniq hi.nodup h3 hm h4]; exact .inr rfl
  · intro hx
    simp only [setPhase, List.mem_map]
    rcases hx with ⟨h1, h2⟩ | rfl
    · exact ⟨x, h1, by rw [if_neg h2]⟩
    · exact ⟨h, hm, by rw [if_pos rfl]⟩

/-- numbers are used once -/
theorem started_lt (ops : List Op) : ∀ s : State, (∀ i, .start i ∈ s.log → i < s.next) → ∀ i, .start i ∈ (run s ops).log → i < (run s ops).next := by
  induction ops with
  | nil => intro s h; exact h
  | cons op ops ih =>
    intro s h
    refine ih _ ?_
    intro i hi
    cases op <;> simp only [step] at hi ⊢ <;> grind

/-- **C08**, the steps do what they say: whoever is at work may hand the message to others and may finish; a holder that has finished reads the
number of references; then it gives its reference up, and sends the message on if and only if it has read one. -/
theorem C08_effect (ops : List Op) (op : Op) : Effect (run .init ops) (step (run .init ops) op) op := by
  have hi := inv_run ops .init inv_init
  have hlt := started_lt ops .init (by simp [State.init])
  generalize run .init ops = s at hi hlt
  have fr : Ev.start s.next ∉ s.log := fun h => absurd (hlt _ h) (Nat.lt_irrefl _)
  cases op with
  | wrap =>
    intro h hm hid hp
    have := get_of_mem hi hm
    rw [hid] at this
    simp only [step, this]
    rw [if_pos hp]
    exact ⟨s.next, fr, rfl, rfl⟩
  | capture k =>
    intro h hm hid hp
    have := get_of_mem hi hm
    rw [hid] at this
    simp only [step, this]
    rw [if_pos hp]
    exact ⟨s.next, fr, rfl, rfl⟩
  | dropCaptured i =>
    intro h hm hid hp
    have := get_of_mem hi hm
    rw [hid] at this
    simp only [step, this]
    rw [if_pos hp]
    exact ⟨rfl, fun x => mem_remove⟩
  | finish i =>
    intro h hm hid hp hc
    have := get_of_mem hi hm
    rw [hid] at this
    simp only [step, this]
    rw [if_pos ⟨hp, hc⟩]
    refine ⟨rfl, fun x => ?_⟩
    rw [← hid]
    exact mem_setPhase_iff hi hm _ x
  | load i =>
    intro h hm hid hp
    have := get_of_mem hi hm
    rw [hid] at this
    simp only [step, this]
    rw [if_pos hp]
    refine ⟨rfl, fun x => ?_⟩
    rw [← hid]
    exact mem_setPhase_iff hi hm _ x
  | act i =>
    intro h hm hid n hp
    have := get_of_mem hi hm
    rw [hid] at this
    simp only [step, this, hp]
    have hr := (route_of_holder hi hm).1
    by_cases hn : n = 1
    · rw [if_pos ⟨hr, hn⟩]
      exact ⟨fun x => mem_remove, fun _ => rfl, fun h => absurd hn h⟩
    · rw [if_neg (fun h => hn h.2)]
      exact ⟨fun x => mem_remove, fun h => absurd h hn, fun _ => rfl⟩

/-- what is not possible does nothing -/
def Impossible (s : State) : Op → Prop
  | .wrap => ∀ h ∈ s.holders, h.id = 0 → h.phase ≠ .busy
  | .capture k => ∀ h ∈ s.holders, h.id = k → h.phase ≠ .busy
  | .dropCaptured i => ∀ h ∈ s.holders, h.id = i → h.checks = true
  | .finish i => ∀ h ∈ s.holders, h.id = i → h.phase = .busy → h.checks = false
  | .load i => ∀ h ∈ s.holders, h.id = i → h.phase ≠ .done
  | .act i => ∀ h ∈ s.holders, h.id = i → ∀ n, h.phase ≠ .saw n

/-- **C08**: nobody finishes or gives up a reference who does not have one -/
theorem C08_nothing_else (s : State) (op : Op) (h : Impossible s op) : step s op = s := by
  cases op <;> simp only [step] <;> (try split) <;> (try rfl) <;> rename_i x hg <;> have := h x (get_mem hg).1 (get_mem hg).2 <;> grind

/-- **C08**: a message in the queue for its second hop has no route any more, it is not sent on from there. -/
theorem C08_route_spent (ops : List Op) (h : hops (run .init ops).log = 1) : (run .init ops).route = false := by
  have hi := inv_run ops .init inv_init
  have hh : hops (run .init ops).log = if (run .init ops).route then 0 else 1 := hi.hops
  rw [h] at hh
  cases hr : (run .init ops).route with
  | false => rfl
  | true => rw [hr] at hh; simp at hh

/-- a case: a foreign recipient finishes after the loop, reads one reference and sends the message on -/
example : ⟨1, .saw 1, true⟩ ∈ (run .init [.wrap, .finish 0, .load 0, .act 0, .finish 1, .load 1]).holders ∧
    (run .init [.wrap, .finish 0, .load 0, .act 0, .finish 1, .load 1, .act 1]).route = false := by decide

/-- a case: the loop is gone, nothing more is wrapped -/
example : Impossible (run .init [.finish 0, .load 0, .act 0]) .wrap := by
  have : (run .init [.finish 0, .load 0, .act 0]).holders = [] := by decide
  intro h hm; rw [this] at hm; cases hm

end Verif.Routing
