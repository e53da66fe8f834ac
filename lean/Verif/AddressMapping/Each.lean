import Verif.AddressMapping.Props

/-!
# C44: what a request does to the response addresses
-/

namespace Verif.AddressMapping

/-- **C44.** A request uses one address, at which the answer will be received: afterwards there is a subscription of its actor for the type with
this address. All other subscriptions are what they were; a new one is made only if there was none for the actor and the type, with an address and a
handler that no subscription had before. -/
theorem C44_request (ops : List Op) (hv : Valid State.empty ops) (s : State) (tr) (h : run State.empty ops = .ok (s, tr)) (a ty : Nat) :
    ∃ s' i, step s (.request a ty) = .ok (s', [(a, ty, i.addr)]) ∧ i.ty = ty ∧
      ((s'.subs = s.subs ∧ (a, i) ∈ s.subs) ∨
       (s'.subs = s.subs ++ [(a, i)] ∧ (∀ j, (a, j) ∈ s.subs → j.ty ≠ ty) ∧
        ∀ b j, (b, j) ∈ s.subs → j.addr ≠ i.addr ∧ j.handler ≠ i.handler)) := by
  obtain ⟨s0, tr0, h0, hi⟩ := run_ok ops State.empty inv_empty hv
  rw [h] at h0
  simp only [Except.ok.injEq, Prod.mk.injEq] at h0
  obtain ⟨rfl, rfl⟩ := h0
  simp only [step, request, build]
  cases hm : getMapped s.nat a ty with
  | some x =>
    obtain ⟨i, h1, h2, h3⟩ := (getMapped_eq hi a ty x).1 hm
    exact ⟨s, i, by simp [send, h3], h2, .inl ⟨rfl, h1⟩⟩
  | none =>
    refine ⟨_, ⟨s.next + 1, s.next, ty⟩, rfl, rfl, .inr ⟨by simp [send], ?_, ?_⟩⟩
    · intro j hj ht
      have := (getMapped_eq hi a ty j.addr).2 ⟨j, hj, ht, rfl⟩
      rw [hm] at this; cases this
    · intro b j hj
      have := hi.fresh b j hj
      exact ⟨Nat.ne_of_lt this.1, Nat.ne_of_lt (Nat.lt_succ_of_lt this.2)⟩

/-- **C44.** What the supervisor hears about subscriptions only takes away the one it hears about. -/
theorem C44_unsubscribed (ops : List Op) (hv : Valid State.empty ops) (s : State) (tr) (h : run State.empty ops = .ok (s, tr)) (a : Nat) (i : Info)
    (hm : (a, i) ∈ s.subs) : ∃ s', step s (.unsubscribed a i) = .ok (s', []) ∧ ∀ p, p ∈ s'.subs ↔ p ∈ s.subs ∧ p ≠ (a, i) := by
  obtain ⟨s0, tr0, h0, -, -, -, -, hu⟩ := C44_cleanup_exact ops hv
  rw [h] at h0
  simp only [Except.ok.injEq, Prod.mk.injEq] at h0
  obtain ⟨rfl, rfl⟩ := h0
  obtain ⟨s', h1, h2⟩ := hu a i hm
  exact ⟨s', by simp [step, h1], fun p => h2 p.1 p.2⟩

/-- a case: the second request of the same type gets the same address, one of another actor its own -/
example : ∃ s, run State.empty [.request 7 1, .request 7 1, .request 8 1] = .ok (s, [(7, 1, 0), (7, 1, 0), (8, 1, 2)]) ∧ s.subs.length = 2 :=
  ⟨_, rfl, rfl⟩

end Verif.AddressMapping
