import Verif.Fltk.Model

/-!
# Property C19: no lost wake-up in the FLTK backend
-/

namespace Verif.Fltk

/-- the context an action belongs to -/
def Label.ctx : Label → Nat
  | .push k | .add k | .start k | .drain k => k

/-- messages popped but not subtracted yet -/
def Drain.popped : Drain → Nat
  | .idle => 0 | .fetching n => n | .processed n => n

theorem set_same (s : State) (k : Nat) (c : Ctx) : (s.set k c).ctx k = c := by simp [State.set]
theorem set_counter (s : State) (k : Nat) (c : Ctx) : (s.set k c).counter = s.counter := rfl

structure Inv (k : Nat) (s : State) : Prop where
  /-- what the counter counts -/
  balance : s.counter + (s.ctx k).pushing = (s.ctx k).inbound + (s.ctx k).drain.popped
  /-- the wake-up is on its way -/
  awake : (s.ctx k).drain = .idle → 0 < s.counter → 0 < (s.ctx k).pending
  nonzero : ∀ n, (s.ctx k).drain = .processed n → n ≠ 0

theorem inv_init (k : Nat) : Inv k State.init := by
  constructor <;> simp [State.init, Ctx.init, Drain.popped]

theorem inv_step (k : Nat) (s s' : State) (l : Label) (hl : l.ctx = k) (hi : Inv k s) (h : step s l = some s') : Inv k s' := by
  obtain ⟨h1, h2, h3⟩ := hi
  cases l with
  | push j =>
    simp only [Label.ctx] at hl; subst hl
    simp only [step, Option.some.injEq] at h; subst h
    constructor <;> simp only [set_same, set_counter, push]
    · omega
    · exact h2
    · exact h3
  | add j =>
    simp only [Label.ctx] at hl; subst hl
    simp only [step] at h
    split at h
    · simp at h
    · rename_i hp
      simp only [Option.some.injEq] at h; subst h
      constructor <;> simp only [set_same, add]
      · omega
      · intro hd hc
        split
        · omega
        · exact h2 hd (by omega)
      · exact h3
  | start j =>
    simp only [Label.ctx] at hl; subst hl
    simp only [step] at h
    split at h
    · simp at h
    · rename_i hp
      simp only [not_or, ne_eq, Decidable.not_not] at hp
      simp only [Option.some.injEq] at h; subst h
      rw [hp.2] at h1
      constructor <;> simp only [set_same, set_counter]
      · simpa [Drain.popped] using h1
      · simp
      · simp
  | drain j =>
    simp only [Label.ctx] at hl; subst hl
    simp only [step] at h
    cases hd : drainStep s.counter (s.ctx j) with
    | none => simp [hd] at h
    | some p =>
      obtain ⟨n, c⟩ := p
      simp only [hd, Option.some.injEq] at h
      subst h
      simp only [drainStep] at hd
      split at hd
      · simp at hd
      · rename_i m hm
        rw [hm] at h1
        simp only [Drain.popped] at h1
        split at hd
        · rename_i hz
          split at hd
          · rename_i hm0
            simp only [Option.some.injEq, Prod.mk.injEq] at hd
            obtain ⟨rfl, rfl⟩ := hd
            constructor <;> simp only [set_same, Drain.popped]
            · omega
            · intro _ hc
              -- the counter is not positive after an empty round
              exfalso; omega
            · simp
          · rename_i hm0
            simp only [Option.some.injEq, Prod.mk.injEq] at hd
            obtain ⟨rfl, rfl⟩ := hd
            constructor <;> simp only [set_same, Drain.popped]
            · omega
            · simp
            · intro n hn; simp only [Drain.processed.injEq] at hn; omega
        · simp only [Option.some.injEq, Prod.mk.injEq] at hd
          obtain ⟨rfl, rfl⟩ := hd
          constructor <;> simp only [set_same, Drain.popped]
          · omega
          · simp
          · simp
      · rename_i m hm
        rw [hm] at h1
        simp only [Drain.popped] at h1
        simp only [Option.some.injEq, Prod.mk.injEq] at hd
        obtain ⟨rfl, rfl⟩ := hd
        constructor <;> simp only [set_same]
        · split <;> simp only [Drain.popped] <;> omega
        · split
          · intro _ hc; exfalso; omega
          · simp
        · split <;> simp

theorem inv_run (k : Nat) (ls : List Label) (s s' : State) (hl : ∀ l ∈ ls, l.ctx = k) (hi : Inv k s)
    (h : run s ls = some s') : Inv k s' := by
  induction ls generalizing s with
  | nil => simp only [run, Option.some.injEq] at h; subst h; exact hi
  | cons e es ih =>
    simp only [run] at h
    cases hs : step s e with
    | none => simp [hs] at h
    | some s1 =>
      rw [hs] at h
      exact ih s1 (fun l hm => hl l (by simp [hm])) (inv_step k s s1 e (hl e (by simp)) hi hs) h

/-- **C19 (partial: the process has a single FLTK context; with two it fails, see below).** In every
interleaving of any number of sending threads with the callback: when no callback is running and
messages are waiting, then a wake-up is pending or some sender has not finished `enqueue` yet. -/
theorem C19_no_lost_wakeup_partial (k : Nat) (ls : List Label) (s : State) (hl : ∀ l ∈ ls, l.ctx = k)
    (h : run State.init ls = some s) (hd : (s.ctx k).drain = .idle) (hin : 0 < (s.ctx k).inbound) :
    0 < (s.ctx k).pending ∨ 0 < (s.ctx k).pushing := by
  obtain ⟨h1, h2, _⟩ := inv_run k ls _ s hl (inv_init k) h
  rw [hd] at h1
  simp only [Drain.popped] at h1
  by_cases hp : 0 < (s.ctx k).pushing
  · exact .inr hp
  · exact .inl (h2 hd (by omega))

/-- steps of the callback alone -/
def drainRun (k : Nat) : Nat → State → State
  | 0, s => s
  | n + 1, s => match step s (.drain k) with
    | none => s
    | some s' => drainRun k n s'

/-- **C19, every message arrives (partial: single context).** When the senders are done, the callback,
once started, runs to its end, and has then handed over all the waiting messages, no more, no less;
and when messages are waiting and no callback runs, one can be started. -/
theorem C19_callback_takes_everything_partial (k : Nat) (ls : List Label) (s : State) (hl : ∀ l ∈ ls, l.ctx = k)
    (h : run State.init ls = some s) (hp : (s.ctx k).pushing = 0) :
    ((s.ctx k).drain ≠ .idle → ∃ n, ((drainRun k n s).ctx k).drain = .idle ∧ ((drainRun k n s).ctx k).inbound = 0 ∧
      ((drainRun k n s).ctx k).delivered = (s.ctx k).delivered + (s.ctx k).inbound) ∧
    ((s.ctx k).drain = .idle → 0 < (s.ctx k).inbound → ∃ s', step s (.start k) = some s' ∧
      (s'.ctx k).drain ≠ .idle ∧ (s'.ctx k).inbound = (s.ctx k).inbound) := by
  have hi := inv_run k ls _ s hl (inv_init k) h
  constructor
  · -- termination: messages first, then the phase of the callback
    have key : ∀ (m : Nat) (s : State), Inv k s → (s.ctx k).pushing = 0 → (s.ctx k).drain ≠ .idle →
        4 * (s.ctx k).inbound + (match (s.ctx k).drain with | .idle => 0 | .processed _ => 2 | .fetching 0 => 1 | .fetching _ => 3) ≤ m →
        ∃ n, ((drainRun k n s).ctx k).drain = .idle ∧ ((drainRun k n s).ctx k).inbound = 0 ∧
          ((drainRun k n s).ctx k).delivered = (s.ctx k).delivered + (s.ctx k).inbound := by
      intro m
      induction m with
      | zero =>
        intro s _ _ hd hm
        cases hdr : (s.ctx k).drain with
        | idle => exact absurd hdr hd
        | fetching n =>
          rw [hdr] at hm
          cases n <;> simp at hm
        | processed n => rw [hdr] at hm; simp at hm
      | succ m ih =>
        intro s hi hp hd hm
        cases hst : drainStep s.counter (s.ctx k) with
        | none =>
          exfalso
          simp only [drainStep] at hst
          split at hst
          · rename_i hdr; exact hd hdr
          · split at hst
            · split at hst <;> simp at hst
            · simp at hst
          · simp at hst
        | some q =>
          obtain ⟨cn, c⟩ := q
          have hstep : step s (.drain k) = some { s.set k c with counter := cn } := by simp [step, hst]
          have hi' := inv_step k s _ (.drain k) rfl hi hstep
          have hc : ({ s.set k c with counter := cn } : State).ctx k = c := set_same s k c
          have hb := hi.balance
          simp only [drainStep] at hst
          -- the measure and what is handed over
          have : (c.drain = .idle ∧ c.inbound = 0 ∧ c.delivered = (s.ctx k).delivered + (s.ctx k).inbound) ∨
              (c.drain ≠ .idle ∧ c.pushing = 0 ∧ c.delivered + c.inbound = (s.ctx k).delivered + (s.ctx k).inbound ∧
                4 * c.inbound + (match c.drain with | .idle => 0 | .processed _ => 2 | .fetching 0 => 1 | .fetching _ => 3) ≤ m) := by
            cases hdr : (s.ctx k).drain with
            | idle => exact absurd hdr hd
            | fetching n =>
              rw [hdr] at hst hm
              simp only at hst
              by_cases hz : (s.ctx k).inbound = 0
              · rw [if_pos hz] at hst
                by_cases hn : n = 0
                · rw [if_pos hn] at hst
                  simp only [Option.some.injEq, Prod.mk.injEq] at hst
                  rw [← hst.2]
                  exact .inl ⟨rfl, hz, by simp [hz]⟩
                · rw [if_neg hn] at hst
                  simp only [Option.some.injEq, Prod.mk.injEq] at hst
                  rw [← hst.2]
                  refine .inr ⟨by simp, hp, rfl, ?_⟩
                  cases n with
                  | zero => exact absurd rfl hn
                  | succ n => simp only at hm ⊢; omega
              · rw [if_neg hz] at hst
                simp only [Option.some.injEq, Prod.mk.injEq] at hst
                rw [← hst.2]
                refine .inr ⟨by simp, hp, by simp only; omega, ?_⟩
                cases n with
                | zero => simp only at hm ⊢; omega
                | succ n => simp only at hm ⊢; omega
            | processed n =>
              rw [hdr] at hst hm hb
              simp only [Option.some.injEq, Prod.mk.injEq] at hst
              simp only [Drain.popped] at hb
              rw [← hst.2]
              by_cases hcn : s.counter = n
              · have : (s.ctx k).inbound = 0 := by omega
                exact .inl ⟨by simp [hcn], this, by simp [this]⟩
              · refine .inr ⟨by simp [hcn], hp, rfl, ?_⟩
                simp only [if_neg hcn] at hm ⊢; omega
          rcases this with ⟨a1, a2, a3⟩ | ⟨a1, a2, a3, a4⟩
          · refine ⟨1, ?_⟩
            simp only [drainRun, hstep, hc]
            exact ⟨a1, a2, a3⟩
          · obtain ⟨n, b1, b2, b3⟩ := ih _ hi' (by rw [hc]; exact a2) (by rw [hc]; exact a1) (by rw [hc]; exact a4)
            refine ⟨n + 1, ?_⟩
            simp only [drainRun, hstep]
            refine ⟨b1, b2, ?_⟩
            rw [b3, hc]; exact a3
    intro hd
    exact key _ s hi hp hd (Nat.le_refl _)
  · intro hd hin
    have : 0 < (s.ctx k).pending := by
      rcases C19_no_lost_wakeup_partial k ls s hl h hd hin with h | h
      · exact h
      · omega
    refine ⟨s.set k { s.ctx k with pending := (s.ctx k).pending - 1, drain := .fetching 0 }, ?_, ?_, ?_⟩
    · simp only [step]
      rw [if_neg]
      simp only [not_or, ne_eq, Decidable.not_not]
      exact ⟨by omega, hd⟩
    · simp [set_same]
    · simp [set_same]

/-- the scenario: context 0 gets a message, then context 1; the callback of context 0 runs -/
def lostRun : List Label := [.push 0, .add 0, .push 1, .add 1, .start 0, .drain 0, .drain 0, .drain 0, .drain 0]

/-- **C19 fails for two contexts in one process:** the counter is static, so context 1 is left with a
message and no wake-up; and whatever any number of threads sends to either context later on, no wake-up
is ever requested again, so no callback ever runs again. -/
theorem C19_two_contexts_counterexample : ∃ s, run State.init lostRun = some s ∧
    (s.ctx 1).inbound = 1 ∧ (s.ctx 1).pending = 0 ∧ (s.ctx 1).drain = .idle ∧ (s.ctx 1).pushing = 0 ∧
    ∀ (ls : List Label) (s' : State), run s ls = some s' →
      ∀ k, (s'.ctx k).delivered = (s.ctx k).delivered ∧ (s'.ctx k).pending = 0 := by
  refine ⟨_, rfl, rfl, rfl, rfl, rfl, ?_⟩
  have key : ∀ (ls : List Label) (s s' : State), 0 < s.counter → (∀ k, (s.ctx k).pending = 0 ∧ (s.ctx k).drain = .idle) →
      run s ls = some s' → ∀ k, (s'.ctx k).delivered = (s.ctx k).delivered ∧ (s'.ctx k).pending = 0 := by
    intro ls
    induction ls with
    | nil => intro s s' _ hq h k; simp only [run, Option.some.injEq] at h; subst h; exact ⟨rfl, (hq k).1⟩
    | cons l ls ih =>
      intro s s' hc hq h k
      simp only [run] at h
      cases hs : step s l with
      | none => simp [hs] at h
      | some s1 =>
        rw [hs] at h
        have hstep : 0 < s1.counter ∧ ∀ j, (s1.ctx j).pending = 0 ∧ (s1.ctx j).drain = .idle ∧
            (s1.ctx j).delivered = (s.ctx j).delivered := by
          cases l with
          | push i =>
            simp only [step, Option.some.injEq] at hs; subst hs
            refine ⟨hc, fun j => ?_⟩
            by_cases hj : j = i
            · subst hj; simp [State.set, push, hq j]
            · simp [State.set, hj, hq j]
          | add i =>
            simp only [step] at hs
            split at hs
            · simp at hs
            · simp only [Option.some.injEq] at hs; subst hs
              refine ⟨by simp only; omega, fun j => ?_⟩
              have : s.counter ≠ 0 := by omega
              by_cases hj : j = i
              · subst hj; simp [State.set, add, hq j, this]
              · simp [State.set, hj, hq j]
          | start i => simp [step, hq i] at hs
          | drain i => simp [step, drainStep, hq i] at hs
        obtain ⟨h1, h2⟩ := hstep
        have := ih s1 s' h1 (fun j => ⟨(h2 j).1, (h2 j).2.1⟩) h k
        rw [this.1, (h2 k).2.2]
        exact ⟨rfl, this.2⟩
  intro ls s' h k
  refine key ls _ s' (by decide) ?_ h k
  intro j
  by_cases h0 : j = 0
  · subst h0; decide
  · by_cases h1 : j = 1
    · subst h1; decide
    · simp [State.set, State.init, Ctx.init, h0, h1]

/-- the scenario the counter is made for: a message is popped before its sender counts it -/
example : ∃ s, run State.init [.push 0, .add 0, .push 0, .start 0, .drain 0, .drain 0, .drain 0, .drain 0, .drain 0] = some s ∧
    s.counter = -1 ∧ (s.ctx 0).drain = .idle ∧ (s.ctx 0).inbound = 0 ∧ (s.ctx 0).delivered = 2 ∧ (s.ctx 0).pushing = 1 :=
  ⟨_, rfl, rfl, rfl, rfl, rfl, rfl⟩

end Verif.Fltk
