import Verif.Net.Props

/-! Subscribing and unsubscribing have an effect: C54. -/

namespace Verif.Net
open Verif

/-- **C54, subscribing.** A subscription that is accepted exists at once and is not being undone; a local one is in the table, and a
foreign one is announced to the locality of the address. -/
theorem C54_subscribed (c : Cfg) (env : Env) (s s' : State) (a : Nat) (h : Handler) (addr : Nat) (anon : Bool)
    (he : step c env s (.act a [.subscribe h addr anon]) = .ok s') :
    s.points.find (h, addr) = none ∧ s'.points.find (h, addr) = some ⟨anon, false⟩ ∧ (h, addr) ∈ s'.listed.map (·.1) ∧
    (c.locD addr = c.locA a → (s'.subs addr h.ty).int = (s.subs addr h.ty).int ++ [h]) ∧
    (c.locD addr ≠ c.locA a → ∃ m, s'.queue (c.locA a) = s.queue (c.locA a) ++ [m] ∧ m.body = .extSub h addr ∧ c.locD m.dest = c.locD addr) := by
  simp only [step, runActs, subscribe] at he
  by_cases h0 : h.actor ≠ a ∨ (s.points.find (h, addr)).isSome
  · rw [if_pos h0] at he; simp at he
  · rw [if_neg h0] at he
    simp only [not_or, Option.not_isSome_iff_eq_none] at h0
    by_cases hl : c.locD addr = c.locA a
    · simp only [if_pos hl, Except.ok.injEq] at he
      subst he
      refine ⟨h0.2, by simp [send, setSubs, AMap.find_set], by simp [send, setSubs], fun _ => by simp [send, setSubs], fun hn => absurd hl hn⟩
    · simp only [if_neg hl, Except.ok.injEq] at he
      subst he
      refine ⟨h0.2, by simp [send, AMap.find_set], by simp [send], fun hn => absurd hn hl, fun _ => ?_⟩
      exact ⟨_, by simp [send, upd]; rfl, rfl, c.hSup _⟩

/-- **C54, unsubscribing.** When user code undoes a subscription that it has, exactly one request to do so is under way afterwards, in
the queue of its own locality; undoing it again changes nothing. -/
theorem C54_unsubscribing (c : Cfg) (env : Env) (ops : List Op) (s s' : State) (hr : run c env .init ops = .ok s) (a : Nat) (h : Handler) (addr : Nat)
    (hp : (s.points.find (h, addr)).isSome = true) (he : step c env s (.act a [.unsubscribe h addr]) = .ok s') :
    (∃ x, s'.points.find (h, addr) = some ⟨x, true⟩) ∧ (s'.queue (c.locA a)).countP (fun m => decide (m.body = .unsub h addr)) = 1 ∧
    (∀ s2, step c env s' (.act a [.unsubscribe h addr]) = .ok s2 → s2 = s') := by
  have hr' : run c env .init (ops ++ [.act a [.unsubscribe h addr]]) = .ok s' := by
    have : ∀ (l : List Op) (t : State), run c env t l = .ok s → run c env t (l ++ [.act a [.unsubscribe h addr]]) = .ok s' := by
      intro l
      induction l with
      | nil => intro t ht; simp only [run, Except.ok.injEq] at ht; subst ht; simp only [List.nil_append, run, he]
      | cons x l ih =>
        intro t ht
        simp only [run, List.cons_append] at ht ⊢
        split at ht
        · simp at ht
        · exact ih _ ht
    exact this ops _ hr
  have hi := reach c env _ s' hr'
  have hex : h.actor = a ∧ ∃ x, s'.points.find (h, addr) = some ⟨x, true⟩ := by
    simp only [step, runActs, unsubscribe] at he
    by_cases h0 : h.actor ≠ a
    · rw [if_pos h0] at he; simp at he
    · rw [if_neg h0] at he
      simp only [ne_eq, Decidable.not_not] at h0
      refine ⟨h0, ?_⟩
      cases hf : s.points.find (h, addr) with
      | none => rw [hf] at hp; simp at hp
      | some p =>
        rw [hf] at he
        obtain ⟨x, lv⟩ := p
        cases lv with
        | true => simp only [if_true, Except.ok.injEq] at he; subst he; exact ⟨x, hf⟩
        | false =>
          simp only [Bool.false_eq_true, if_false, Except.ok.injEq] at he
          subst he
          exact ⟨x, by simp [send, AMap.find_set]⟩
  obtain ⟨rfl, x, hx⟩ := hex
  refine ⟨⟨x, hx⟩, ?_, ?_⟩
  · have := hi.P.leave h addr _ hx
    simp only [if_true] at this
    rw [← this]
    apply List.countP_congr
    intro m _
    simp only [decide_eq_true_eq]
    exact ⟨fun hb => by simp [isUnsub, hb], isUnsub_body⟩
  · intro s2 h2
    simp only [step, runActs, unsubscribe, hx, ne_eq, not_true, if_false, if_true, Except.ok.injEq] at h2
    exact h2.symm

/-- **C54, the effect.** When no message about a subscription is under way, the handler is in the tables, in those of its own locality or
of the foreign one, exactly if its actor has the subscription and has not undone it. -/
theorem C54_effect (c : Cfg) (env : Env) (ops : List Op) (s : State) (hr : run c env .init ops = .ok s) (h : Handler) (addr : Nat)
    (hn : ∀ l m, m ∈ s.queue l ∨ m ∈ s.inb l → m.body ≠ .extSub h addr ∧ m.body ≠ .commit h addr ∧ m.body ≠ .unsub h addr) :
    (h ∈ (s.subs addr h.ty).int ∨ h ∈ (s.subs addr h.ty).ext) ↔ ∃ x, s.points.find (h, addr) = some ⟨x, false⟩ := by
  have hi := reach c env ops s hr
  have hlv : ∀ p, s.points.find (h, addr) = some p → p.leaving = false := by
    intro p hp
    cases hv : p.leaving with
    | false => rfl
    | true =>
      have := hi.P.leave h addr p hp
      rw [if_pos hv] at this
      obtain ⟨m, hm, hb⟩ := List.countP_pos_iff.1 (by omega : 0 < (s.queue (c.locA h.actor)).countP (isUnsub h addr))
      exact absurd (isUnsub_body hb) (hn _ m (.inl hm)).2.2
  have hsome : (s.points.find (h, addr)).isSome = true ↔ ∃ x, s.points.find (h, addr) = some ⟨x, false⟩ := by
    constructor
    · intro hs
      obtain ⟨p, hp⟩ := Option.isSome_iff_exists.1 hs
      have := hlv p hp
      obtain ⟨x, y⟩ := p
      simp only at this; subst this
      exact ⟨x, hp⟩
    · rintro ⟨x, hx⟩; rw [hx]; rfl
  rw [← hsome]
  by_cases hl : c.locD addr = c.locA h.actor
  · rw [← (C54_local c env ops s hr h addr hl).1]
    constructor
    · rintro (hm | hm)
      · exact hm
      · exact absurd hl (hi.T.extIff h addr (hi.T.extTy h addr _ hm).2).2
    · exact .inl
  · rw [← (C54_agreement c env ops s hr h addr hl (fun l m hm => ⟨(hn l m hm).1, (hn l m hm).2.1⟩)).1]
    constructor
    · rintro (hm | hm)
      · exact absurd (hi.T.intTy h addr _ hm).2 hl
      · exact hm
    · exact .inr

/-- a foreign subscription is made and undone; in between the handler is in the table, in the end it is not, and nothing is under way -/
example : ∃ s1 s2 s3, run exCfg (fun _ => []) .init
      [.act 11 [.subscribe exH 3 false], .take 1, .poll 0, .take 0, .take 0, .poll 1, .take 1] = .ok s1 ∧ (s1.subs 3 7).ext = [exH] ∧
      s1.points.find (exH, 3) = some ⟨false, false⟩ ∧ s1.queue 0 = [] ∧ s1.queue 1 = [] ∧
    step exCfg (fun _ => []) s1 (.act 11 [.unsubscribe exH 3]) = .ok s2 ∧ (s2.queue 1).map (·.body) = [.unsub exH 3] ∧
    run exCfg (fun _ => []) s2 [.take 1, .take 1, .poll 0, .take 0] = .ok s3 ∧ (s3.subs 3 7).ext = [] ∧ s3.points.find (exH, 3) = none ∧
      s3.queue 0 = [] ∧ s3.queue 1 = [] ∧ s3.inb 0 = [] ∧ s3.inb 1 = [] :=
  ⟨_, _, _, rfl, by decide, by decide, by decide, by decide, rfl, by decide, rfl, by decide, by decide, by decide, by decide, by decide, by decide⟩

end Verif.Net
