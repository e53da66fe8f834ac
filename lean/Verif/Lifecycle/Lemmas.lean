import Verif.Lifecycle.Spec
/-! Invariants of the life cycle -/

namespace Verif.Lifecycle
open Verif

structure Inv (c : Cfg) (s : State) : Prop where
  st : stateOf s.log = s.st
  fresh : s.st = .new → s.log = [] ∧ s.initReq = none ∧ s.shutReq = none ∧ s.reason = none
  react : ∀ ph i, s.st ≠ .new → s.react ph i = takesPart c ph i s.log
  agreed : ∀ ph i, s.st ≠ .new → c.reacts ph i = true → s.react ph i = true ∨ Agreed ph i s.log
  rules : Every (Rule c) s.log
  reason : s.reason = firstReason s.log
  known : s.st ≠ .unknown
  down : s.st.rank < AState.shuttingDown.rank → lastShut s.log = none ∧ s.shutReq = none
  shut : s.st = .shuttingDown → s.shutReq = lastShut s.log

theorem inv_init (c : Cfg) : Inv c .init := by
  constructor <;> simp [State.init, stateOf, Every, firstReason, lastShut]

/-- a step that only adds an event without consequences -/
def Neutral : Ev → Prop
  | .ask _ _ => True
  | .answer _ _ false => True
  | .gotInit _ => True
  | .replyInit _ _ => True
  | .replyShut _ _ => True
  | .trigger _ _ => True
  | _ => False

theorem stateOf_cons {e : Ev} {l : List Ev} (h : ∀ st, e ≠ .became st) : stateOf (e :: l) = stateOf l := by
  cases e <;> simp_all [stateOf]

theorem takesPart_neutral {c : Cfg} {e : Ev} {l : List Ev} {ph : Phase} {i : Nat} (h : Neutral e) :
    takesPart c ph i (e :: l) = takesPart c ph i l := by
  cases e <;> simp_all [Neutral, takesPart]
  rename_i a b d
  cases d <;> simp_all [Neutral, takesPart]

theorem agreed_mono {ph : Phase} {i : Nat} {l : List Ev} (e : Ev) (h : Agreed ph i l) : Agreed ph i (e :: l) := by
  rcases h with h | h
  · exact .inl (List.mem_cons_of_mem _ h)
  · exact .inr (List.mem_cons_of_mem _ h)

theorem agreed_app {ph : Phase} {i : Nat} {l : List Ev} (k : List Ev) (h : Agreed ph i l) : Agreed ph i (k ++ l) := by
  rcases h with h | h
  · exact .inl (List.mem_append_right _ h)
  · exact .inr (List.mem_append_right _ h)

theorem neutral_not {e : Ev} (h : Neutral e) : (∀ st, e ≠ .became st) ∧ (∀ l, firstReason (e :: l) = firstReason l) ∧
    (∀ l, lastShut (e :: l) = lastShut l) := by
  cases e <;> simp_all [Neutral, firstReason, lastShut]

theorem inv_neutral {c : Cfg} {s : State} {e : Ev} (h : Inv c s) (hn : Neutral e) (hst : s.st ≠ .new)
    (hr : Rule c e s.log) : Inv c { s with log := e :: s.log } := by
  obtain ⟨h1, h2, h3⟩ := neutral_not hn
  refine ⟨?_, ?_, ?_, ?_, ⟨hr, h.rules⟩, ?_, h.known, ?_, ?_⟩
  · simp only; rw [stateOf_cons h1]; exact h.st
  · intro h'; exact absurd h' hst
  · intro ph i hh; simp only; rw [takesPart_neutral hn]; exact h.react ph i hh
  · intro ph i hh hc
    rcases h.agreed ph i hh hc with h' | h'
    · exact .inl h'
    · exact .inr (agreed_mono e h')
  · simp only; rw [h2]; exact h.reason
  · simp only; rw [h3]; exact h.down
  · simp only; rw [h3]; exact h.shut

/-- switching a reaction with the corresponding event -/
theorem inv_switch {c : Cfg} {s : State} {ph : Phase} {i : Nat} {b : Bool} {e : Ev} (h : Inv c s) (hst : s.st ≠ .new)
    (he : (b = true ∧ e = .joined ph i) ∨ (b = false ∧ (e = .left ph i ∨ e = .answer ph i true))) :
    Inv c { setReact ph i b s with log := e :: s.log } := by
  have h1 : ∀ st, e ≠ .became st := by rcases he with ⟨_, rfl⟩ | ⟨_, rfl | rfl⟩ <;> simp
  have h2 : firstReason (e :: s.log) = firstReason s.log := by rcases he with ⟨_, rfl⟩ | ⟨_, rfl | rfl⟩ <;> simp [firstReason]
  have h3 : lastShut (e :: s.log) = lastShut s.log := by rcases he with ⟨_, rfl⟩ | ⟨_, rfl | rfl⟩ <;> simp [lastShut]
  have h4 : Rule c e s.log := by rcases he with ⟨_, rfl⟩ | ⟨_, rfl | rfl⟩ <;> simp [Rule]
  have h5 : ∀ p j, takesPart c p j (e :: s.log) = if p = ph ∧ j = i then b else takesPart c p j s.log := by
    intro p j
    rcases he with ⟨rfl, rfl⟩ | ⟨rfl, rfl | rfl⟩ <;> simp only [takesPart] <;>
    by_cases hc : p = ph ∧ j = i
    · simp [hc]
    · have : ¬ (ph = p ∧ i = j) := fun hx => hc ⟨hx.1.symm, hx.2.symm⟩
      simp [hc, this]
    · simp [hc]
    · have : ¬ (ph = p ∧ i = j) := fun hx => hc ⟨hx.1.symm, hx.2.symm⟩
      simp [hc, this]
    · simp [hc]
    · have : ¬ (ph = p ∧ i = j) := fun hx => hc ⟨hx.1.symm, hx.2.symm⟩
      simp [hc, this]
  have h6 : b = false → Agreed ph i (e :: s.log) := by
    intro hb
    rcases he with ⟨h', _⟩ | ⟨_, rfl | rfl⟩
    · rw [hb] at h'; cases h'
    · exact .inr (by simp)
    · exact .inl (by simp)
  refine ⟨?_, ?_, ?_, ?_, ⟨h4, h.rules⟩, ?_, h.known, ?_, ?_⟩
  · show stateOf (e :: s.log) = s.st
    rw [stateOf_cons h1]; exact h.st
  · intro h'; exact absurd h' hst
  · intro p j hh
    show (if p = ph ∧ j = i then b else s.react p j) = takesPart c p j (e :: s.log)
    rw [h5, h.react p j hst]
  · intro p j hh hc
    show (if p = ph ∧ j = i then b else s.react p j) = true ∨ Agreed p j (e :: s.log)
    by_cases hx : p = ph ∧ j = i
    · obtain ⟨rfl, rfl⟩ := hx
      cases b with
      | true => left; simp
      | false => exact .inr (h6 rfl)
    · simp only [hx, if_false]
      rcases h.agreed p j hst hc with h' | h'
      · exact .inl h'
      · exact .inr (agreed_mono e h')
  · show s.reason = _; rw [h2]; exact h.reason
  · show _ → lastShut (e :: s.log) = none ∧ _; rw [h3]; exact h.down
  · show _ → s.shutReq = lastShut (e :: s.log); rw [h3]; exact h.shut

/-- what stays the same while plugins are polled -/
structure Same (s s' : State) : Prop where
  st : s'.st = s.st
  initReq : s'.initReq = s.initReq
  shutReq : s'.shutReq = s.shutReq
  reason : s'.reason = s.reason
  log : ∃ k, s'.log = k ++ s.log ∧ ∀ e ∈ k, ∃ ph i, e = .ask ph i ∨ (∃ b, e = .answer ph i b) ∨ e = .joined ph i ∨ e = .left ph i

theorem same_refl (s : State) : Same s s := ⟨rfl, rfl, rfl, rfl, [], by simp⟩

theorem same_trans {a b d : State} (h1 : Same a b) (h2 : Same b d) : Same a d := by
  obtain ⟨k1, e1, p1⟩ := h1.log
  obtain ⟨k2, e2, p2⟩ := h2.log
  refine ⟨h2.st.trans h1.st, h2.initReq.trans h1.initReq, h2.shutReq.trans h1.shutReq, h2.reason.trans h1.reason, k2 ++ k1, ?_, ?_⟩
  · rw [e2, e1, List.append_assoc]
  · intro e he
    rcases List.mem_append.1 he with h | h
    · exact p2 e h
    · exact p1 e h

theorem same_agreed {s s' : State} {ph : Phase} {i : Nat} (h : Same s s') (ha : Agreed ph i s.log) : Agreed ph i s'.log := by
  obtain ⟨k, e, _⟩ := h.log
  rw [e]; exact agreed_app k ha

theorem applyEffs_inv {c : Cfg} (l : List Eff) : ∀ {s : State}, Inv c s → s.st ≠ .new →
    Inv c (applyEffs l s) ∧ Same s (applyEffs l s) := by
  induction l with
  | nil => intro s h _; exact ⟨h, same_refl s⟩
  | cons e l ih =>
    intro s h hst
    cases e with
    | on ph i =>
      have h1 := inv_switch (b := true) (e := .joined ph i) h hst (.inl ⟨rfl, rfl⟩)
      have := ih h1 hst
      refine ⟨this.1, same_trans (b := { setReact ph i true s with log := .joined ph i :: s.log }) ⟨rfl, rfl, rfl, rfl, [.joined ph i], rfl, ?_⟩ this.2⟩
      simp
    | off ph i =>
      have h1 := inv_switch (b := false) (e := .left ph i) h hst (.inr ⟨rfl, .inl rfl⟩)
      have := ih h1 hst
      refine ⟨this.1, same_trans (b := { setReact ph i false s with log := .left ph i :: s.log }) ⟨rfl, rfl, rfl, rfl, [.left ph i], rfl, ?_⟩ this.2⟩
      simp

theorem pass_inv {c : Cfg} {env : Env} {ph : Phase} (l : List Nat) : ∀ {s : State}, Inv c s → s.st ≠ .new →
    (∀ j ∈ l, ∀ i, i < c.n → Before ph i j → i ∉ l → c.reacts ph i = true → Agreed ph i s.log) →
    (l.Pairwise (Before ph)) → (∀ i, i < c.n → i ∉ l → c.reacts ph i = true → Agreed ph i s.log) →
    Inv c (pass env ph l s).1 ∧ Same s (pass env ph l s).1 ∧
    ((pass env ph l s).2 = true → ∀ i, i < c.n → c.reacts ph i = true → Agreed ph i (pass env ph l s).1.log) ∧
    ((pass env ph l s).2 = false → ∃ i k, (pass env ph l s).1.log = .answer ph i false :: k) := by
  induction l with
  | nil => intro s h _ _ _ ha; exact ⟨h, same_refl s, fun _ i hi hc => ha i hi (by simp) hc, by simp [pass]⟩
  | cons j l ih =>
    intro s h hst hb hp ha
    have hpc := List.pairwise_cons.1 hp
    unfold pass
    by_cases hr : s.react ph j = true
    · simp only [hr, if_true]
      -- the question
      have hask : Rule c (.ask ph j) s.log := by
        refine ⟨(h.react ph j hst) ▸ hr, ?_⟩
        intro i hi hbe hc
        by_cases him : i ∈ j :: l
        · exfalso
          rcases List.mem_cons.1 him with rfl | him
          · cases ph <;> simp [Before] at hbe
          · have := hpc.1 i him
            cases ph <;> simp [Before] at this hbe <;> omega
        · exact ha i hi him hc
      have h1 := inv_neutral h (e := .ask ph j) trivial hst hask
      obtain ⟨h2, hs2⟩ := applyEffs_inv (c := c) (env ph j s.log).2 h1 hst
      have hs2' : Same s (applyEffs (env ph j s.log).2 { s with log := .ask ph j :: s.log }) :=
        same_trans (b := { s with log := .ask ph j :: s.log }) ⟨rfl, rfl, rfl, rfl, [.ask ph j], rfl, by simp⟩ hs2
      generalize hq : applyEffs (env ph j s.log).2 { s with log := .ask ph j :: s.log } = q at *
      have hstq : q.st ≠ .new := by rw [hs2'.st]; exact hst
      cases hans : (env ph j s.log).1 with
      | true =>
        simp only [if_true]
        have h3 := inv_switch (b := false) (ph := ph) (i := j) (e := .answer ph j true) h2 hstq (.inr ⟨rfl, .inr rfl⟩)
        have hs3 : Same s (setReact ph j false { q with log := .answer ph j true :: q.log }) :=
          same_trans hs2' ⟨rfl, rfl, rfl, rfl, [.answer ph j true], rfl, by
            intro e he; simp at he; exact ⟨ph, j, .inr (.inl ⟨true, he⟩)⟩⟩
        have hj : Agreed ph j (.answer ph j true :: q.log) := .inl (by simp)
        have key := ih (s := setReact ph j false { q with log := .answer ph j true :: q.log }) h3 hstq
          (by
            intro k hk i hi hbe hil hc
            by_cases hij : i = j
            · subst hij; exact hj
            · exact same_agreed hs3 (ha i hi (by simp [hij, hil]) hc))
          hpc.2
          (by
            intro i hi hil hc
            by_cases hij : i = j
            · subst hij; exact hj
            · exact same_agreed hs3 (ha i hi (by simp [hij, hil]) hc))
        exact ⟨key.1, same_trans hs3 key.2.1, key.2.2⟩
      | false =>
        simp only [Bool.false_eq_true, if_false]
        refine ⟨inv_neutral h2 trivial hstq trivial, same_trans hs2' ⟨rfl, rfl, rfl, rfl, [.answer ph j false], rfl, ?_⟩, by simp, ?_⟩
        · intro e he; simp at he; exact ⟨ph, j, .inr (.inl ⟨false, he⟩)⟩
        · intro _; exact ⟨j, q.log, rfl⟩
    · simp only [hr, Bool.false_eq_true, if_false]
      have hag : c.reacts ph j = true → Agreed ph j s.log := by
        intro hc
        rcases h.agreed ph j hst hc with h' | h'
        · exact absurd h' hr
        · exact h'
      refine ih h hst ?_ hpc.2 ?_
      · intro k hk i hi hbe hil hc
        by_cases hij : i = j
        · subst hij; exact hag hc
        · exact ha i hi (by simp [hij, hil]) hc
      · intro i hi hil hc
        by_cases hij : i = j
        · subst hij; exact hag hc
        · exact ha i hi (by simp [hij, hil]) hc

theorem order_pairwise (c : Cfg) (ph : Phase) : (order c ph).Pairwise (Before ph) := by
  cases ph with
  | init => exact List.pairwise_lt_range
  | shut => exact List.pairwise_reverse.2 List.pairwise_lt_range

theorem mem_order {c : Cfg} {ph : Phase} {i : Nat} : i ∈ order c ph ↔ i < c.n := by
  cases ph <;> simp [order]

theorem pass_order {c : Cfg} {env : Env} {ph : Phase} {s : State} (h : Inv c s) (hst : s.st ≠ .new) :
    Inv c (pass env ph (order c ph) s).1 ∧ Same s (pass env ph (order c ph) s).1 ∧
    ((pass env ph (order c ph) s).2 = true → ∀ i, i < c.n → c.reacts ph i = true → Agreed ph i (pass env ph (order c ph) s).1.log) ∧
    ((pass env ph (order c ph) s).2 = false → ∃ i k, (pass env ph (order c ph) s).1.log = .answer ph i false :: k) :=
  pass_inv (order c ph) h hst (fun _ _ i hi _ hn _ => absurd (mem_order.2 hi) hn) (order_pairwise c ph)
    (fun i hi hn _ => absurd (mem_order.2 hi) hn)

/-! ## steps -/

theorem inv_become {c : Cfg} {s : State} {st : AState} (h : Inv c s) (hst : s.st ≠ .new) (h1 : st ≠ .new) (h2 : st ≠ .unknown)
    (h3 : st ≠ .initializing) (hr : Rule c (.became st) s.log)
    (h4 : st.rank < AState.shuttingDown.rank → s.st.rank < AState.shuttingDown.rank)
    (h5 : st = .shuttingDown → s.shutReq = lastShut s.log) : Inv c (become st s) := by
  have htp : ∀ ph i, takesPart c ph i (.became st :: s.log) = takesPart c ph i s.log := by
    intro ph i; cases st <;> simp_all [takesPart]
  refine ⟨rfl, fun h' => absurd h' h1, ?_, ?_, ⟨hr, h.rules⟩, ?_, h2, ?_, ?_⟩
  · intro ph i _; show s.react ph i = takesPart c ph i (.became st :: s.log); rw [htp]; exact h.react ph i hst
  · intro ph i _ hc
    rcases h.agreed ph i hst hc with h' | h'
    · exact .inl h'
    · exact .inr (agreed_mono _ h')
  · show s.reason = firstReason (.became st :: s.log); simp only [firstReason]; exact h.reason
  · intro hx
    show lastShut (.became st :: s.log) = none ∧ _
    simp only [lastShut]; exact h.down (h4 hx)
  · intro hx
    show s.shutReq = lastShut (.became st :: s.log)
    simp only [lastShut]; exact h5 hx

theorem inv_initReq {c : Cfg} {s : State} (h : Inv c s) (hst : s.st ≠ .new) (r : Option Nat) : Inv c { s with initReq := r } :=
  ⟨h.st, fun h' => absurd h' hst, h.react, h.agreed, h.rules, h.reason, h.known, h.down, h.shut⟩

theorem initContinue_inv {c : Cfg} {env : Env} {s s' : State} (h : Inv c s) (he : initContinue c env s = .ok s') : Inv c s' := by
  unfold initContinue at he
  by_cases h1 : s.st ≠ .initializing
  · rw [if_pos h1] at he; cases he
  rw [if_neg h1] at he
  by_cases h2 : s.initReq = none
  · rw [if_pos h2] at he; cases he
  rw [if_neg h2] at he
  have h1' : s.st = .initializing := Decidable.not_not.1 h1
  have hst : s.st ≠ .new := by rw [h1']; simp
  obtain ⟨hi, hs, ha, _⟩ := pass_order (c := c) (env := env) (ph := .init) h hst
  simp only at he
  generalize hq : (pass env .init (order c .init) s).1 = q at *
  split at he
  · rename_i hb
    unfold initFinish at he
    rw [hs.initReq] at he
    cases hr : s.initReq with
    | none => exact absurd hr h2
    | some r =>
      rw [hr] at he; simp only at he; injection he with he; subst he
      have hq0 : q.st ≠ .new := by rw [hs.st]; exact hst
      have hq1 := inv_initReq (inv_neutral hi (e := .replyInit r true) trivial hq0 trivial) hq0 none
      refine inv_become hq1 hq0 (by simp) (by simp) (by simp) ?_ ?_ (by simp)
      · refine ⟨⟨?_, r, q.log, rfl⟩, fun i hi' hc => agreed_mono _ (ha hb i hi' hc)⟩
        show stateOf (.replyInit r true :: q.log) = _
        rw [stateOf_cons (by simp), hi.st, hs.st, h1']
      · intro _; show q.st.rank < _; rw [hs.st, h1']; decide
  · injection he with he; subst he; exact hi

theorem lastShut_triggers (c : Cfg) (x : Option Nat) (l : List Ev) : lastShut (triggers c x ++ l) = lastShut l := by
  unfold triggers
  split
  · rfl
  · split <;> split <;> (try split) <;> simp [lastShut]

theorem inv_neutrals {c : Cfg} (k : List Ev) : ∀ {s : State}, Inv c s → s.st ≠ .new → (∀ e ∈ k, Neutral e ∧ ∀ l, Rule c e l) →
    Inv c { s with log := k ++ s.log } := by
  induction k with
  | nil => intro s h _ _; exact h
  | cons e k ih =>
    intro s h hst hk
    have := ih h hst (fun e' he' => hk e' (List.mem_cons_of_mem _ he'))
    exact inv_neutral this (hk e (by simp)).1 hst ((hk e (by simp)).2 _)

theorem triggers_neutral {c : Cfg} {x : Option Nat} {e : Ev} (h : e ∈ triggers c x) : Neutral e ∧ ∀ l, Rule c e l := by
  have : ∃ t, e = .trigger t x := by
    unfold triggers at h
    split at h
    · cases h
    · rcases List.mem_append.1 h with h | h
      · split at h
        · simp at h; exact ⟨_, h⟩
        · cases h
      · split at h
        · split at h
          · simp at h; exact ⟨_, h⟩
          · cases h
        · cases h
  obtain ⟨t, rfl⟩ := this
  exact ⟨trivial, fun _ => trivial⟩

theorem shutdownContinue_inv {c : Cfg} {env : Env} {s s' : State} (h : Inv c s) (he : shutdownContinue c env s = .ok s') : Inv c s' := by
  unfold shutdownContinue at he
  by_cases h1 : s.st ≠ .shuttingDown
  · rw [if_pos h1] at he; cases he
  rw [if_neg h1] at he
  have h1' : s.st = .shuttingDown := Decidable.not_not.1 h1
  have hst : s.st ≠ .new := by rw [h1']; simp
  obtain ⟨hi, hs, ha, _⟩ := pass_order (c := c) (env := env) (ph := .shut) h hst
  simp only at he
  generalize hq : (pass env .shut (order c .shut) s).1 = q at *
  have hq0 : q.st ≠ .new := by rw [hs.st]; exact hst
  have hqs : q.st = .shuttingDown := by rw [hs.st]; exact h1'
  split at he
  · rename_i hb
    injection he with he
    unfold shutdownFinish at he
    cases hr : q.shutReq with
    | none =>
      rw [hr] at he; simp only at he; subst he
      refine inv_become hi hq0 (by simp) (by simp) (by simp) ?_ (by simp [AState.rank]) (by simp)
      refine ⟨⟨?_, ?_⟩, fun i hi' hc => ha hb i hi' hc⟩
      · rw [hi.st, hqs]
      · intro r hx; have := hi.shut hqs; rw [hr, hx] at this; cases this
    | some r =>
      rw [hr] at he; simp only at he; subst he
      have hq1 := inv_neutral hi (e := .replyShut r true) trivial hq0 trivial
      have hq2 : Inv c (become .shutDown { q with log := .replyShut r true :: q.log }) := by
        refine inv_become hq1 hq0 (by simp) (by simp) (by simp) ?_ (by simp [AState.rank]) (by simp)
        refine ⟨⟨?_, ?_⟩, fun i hi' hc => agreed_mono _ (ha hb i hi' hc)⟩
        · show stateOf (.replyShut r true :: q.log) = _
          rw [stateOf_cons (by simp), hi.st, hqs]
        · intro r' hx
          have h1 := hi.shut hqs
          have hx' : lastShut q.log = some r' := hx
          rw [hr, hx'] at h1
          injection h1 with h1; subst h1
          exact ⟨q.log, rfl⟩
      exact ⟨hq2.st, fun h' => (by cases h'), hq2.react, hq2.agreed, hq2.rules, hq2.reason, hq2.known,
        fun h' => absurd h' (by show ¬ AState.shutDown.rank < _; decide), fun h' => (by cases h')⟩
  · injection he with he; subst he; exact hi

theorem assign_fields (x : Option Nat) (s : State) : (assignReason x s).log = s.log ∧ (assignReason x s).st = s.st ∧
    (assignReason x s).react = s.react ∧ (assignReason x s).shutReq = s.shutReq ∧ (assignReason x s).initReq = s.initReq ∧
    (assignReason x s).reason = s.reason.or x := by
  unfold assignReason
  split
  · rename_i h; simp [h]
  · rename_i h
    cases hs : s.reason with
    | none => exact absurd hs h
    | some y => simp

/-- the state after a shutdown request has been noted -/
def noted (r reason : Option Nat) (s : State) : State :=
  assignReason reason { s with shutReq := if r = none then s.shutReq else r, log := .gotShut r reason :: s.log }

theorem noted_start_inv {c : Cfg} {s : State} {r reason : Option Nat} (h : Inv c s) (hl : s.listens)
    (hn : r = none → s.st ≠ .shuttingDown) : Inv c (shutdownStart c (noted r reason s)) := by
  have hrk : s.st.rank ≤ AState.shuttingDown.rank := by
    have := hl.2; revert this; cases s.st <;> simp [AState.rank]
  obtain ⟨a1, a2, a3, a4, _, a6⟩ := assign_fields reason
    { s with shutReq := if r = none then s.shutReq else r, log := .gotShut r reason :: s.log }
  have hlog : (noted r reason s).log = .gotShut r reason :: s.log := a1
  have hst : (noted r reason s).st = s.st := a2
  have hre : (noted r reason s).react = s.react := a3
  have hsr : (noted r reason s).shutReq = if r = none then s.shutReq else r := a4
  have hrs : (noted r reason s).reason = (firstReason s.log).or reason := by rw [← h.reason]; exact a6
  clear a1 a2 a3 a4 a6
  generalize hq : noted r reason s = q at *
  have key : Inv c (become .shuttingDown q) := by
    refine ⟨rfl, fun h' => by simp [become] at h', ?_, ?_, ⟨?_, ?_⟩, ?_, by simp [become], ?_, ?_⟩
    · intro ph i _
      show q.react ph i = takesPart c ph i (.became .shuttingDown :: q.log)
      rw [hre, hlog]; simp only [takesPart]; exact h.react ph i hl.1
    · intro ph i _ hc
      show q.react ph i = true ∨ Agreed ph i (.became .shuttingDown :: q.log)
      rw [hre, hlog]
      rcases h.agreed ph i hl.1 hc with h' | h'
      · exact .inl h'
      · exact .inr (agreed_mono _ (agreed_mono _ h'))
    · refine ⟨?_, r, reason, s.log, hlog⟩
      rw [hlog, stateOf_cons (by simp), h.st]; exact hrk
    · rw [hlog]; exact ⟨trivial, h.rules⟩
    · show q.reason = firstReason (.became .shuttingDown :: q.log)
      rw [hlog, hrs]; simp only [firstReason]
    · intro h'; exact absurd h' (by show ¬ AState.shuttingDown.rank < _; decide)
    · intro _
      show q.shutReq = lastShut (.became .shuttingDown :: q.log)
      rw [hlog, hsr]
      cases r with
      | some r => simp [lastShut]
      | none =>
        simp only [lastShut, if_true]
        have hlt : s.st.rank < AState.shuttingDown.rank := by
          have h1 := hl.2; have h2 := hn rfl
          revert h1 h2; cases s.st <;> simp [AState.rank]
        rw [(h.down hlt).1, (h.down hlt).2]
  unfold shutdownStart
  exact inv_neutrals _ key (by simp [become]) (fun e he => triggers_neutral he)

theorem step_inv {c : Cfg} {env : Env} {s s' : State} {op : Op} (h : Inv c s) (he : step c env s op = .ok s') : Inv c s' := by
  cases op with
  | activate =>
    simp only [step] at he
    split at he
    · cases he
    · rename_i hn
      have hn' : s.st = .new := Decidable.not_not.1 hn
      injection he with he; subst he
      obtain ⟨f1, f2, f3, f4⟩ := h.fresh hn'
      have f1' : s.log = [] := f1
      constructor <;> simp [become, f1', stateOf, Every, Rule, takesPart, firstReason, lastShut, f3, f4]
      intro ph i hc; simp [hc]
  | initRequest r =>
    simp only [step] at he
    split at he
    · rename_i hl
      have h1 := inv_initReq (inv_neutral h (e := .gotInit r) trivial hl.1 trivial) hl.1 (some r)
      split at he
      · split at he
        · cases he
        exact initContinue_inv h1 he
      · injection he with he; subst he; exact h1
    · injection he with he; subst he; exact h
  | start =>
    simp only [step] at he
    split at he
    · rename_i hst
      injection he with he; subst he
      refine inv_become h (by rw [hst]; simp) (by simp) (by simp) (by simp) ?_ ?_ (by simp)
      · show stateOf s.log = _; rw [h.st, hst]
      · intro _; rw [hst]; decide
    · injection he with he; subst he; exact h
  | shutRequest r reason =>
    simp only [step] at he
    split at he
    · rename_i hl
      exact shutdownContinue_inv (noted_start_inv (reason := reason) h hl.1 hl.2) he
    · injection he with he; subst he; exact h
  | progress ph =>
    cases ph with
    | init => exact initContinue_inv h he
    | shut => exact shutdownContinue_inv h he
  | linkRefused =>
    simp only [step] at he
    split at he
    · rename_i hl
      split at he
      · injection he with he; subst he
        exact inv_initReq (inv_neutral h (e := .replyInit _ false) trivial hl.1 trivial) hl.1 none
      · injection he with he; subst he; exact h
    · injection he with he; subst he; exact h
  | registryFailed =>
    simp only [step] at he
    split at he
    · rename_i hl
      split at he
      · injection he with he; subst he
        exact inv_neutral h (e := .replyInit _ false) trivial hl.1 trivial
      · cases he
    · injection he with he; subst he; exact h
  | unlinkFailed =>
    simp only [step] at he
    split at he
    · rename_i hl
      split at he
      · injection he with he; subst he
        exact inv_neutral h (e := .replyShut _ false) trivial hl.1 trivial
      · injection he with he; subst he; exact h
    · injection he with he; subst he; exact h
  | effect e =>
    simp only [step] at he
    split at he
    · rename_i hl
      injection he with he; subst he
      exact (applyEffs_inv [e] h hl.1).1
    · injection he with he; subst he; exact h

theorem run_inv {c : Cfg} {env : Env} (ops : List Op) : ∀ {s s' : State}, Inv c s → run c env s ops = .ok s' → Inv c s' := by
  induction ops with
  | nil => intro s s' h he; injection he with he; subst he; exact h
  | cons op ops ih =>
    intro s s' h he
    unfold run at he
    split at he
    · cases he
    · rename_i s1 h1; exact ih (step_inv h h1) he

/-! ## shapes of the two procedures -/

theorem initContinue_shape {c : Cfg} {env : Env} {s s' : State} (h : Inv c s) (he : initContinue c env s = .ok s') :
    ∃ q, Same s q ∧ s.st = .initializing ∧ ((s' = q ∧ ∃ i k, q.log = .answer .init i false :: k) ∨
      ∃ r, s.initReq = some r ∧ s' = become .initialized { q with initReq := none, log := .replyInit r true :: q.log }) := by
  unfold initContinue at he
  by_cases h1 : s.st ≠ .initializing
  · rw [if_pos h1] at he; cases he
  rw [if_neg h1] at he
  by_cases h2 : s.initReq = none
  · rw [if_pos h2] at he; cases he
  rw [if_neg h2] at he
  have h1' : s.st = .initializing := Decidable.not_not.1 h1
  have hst : s.st ≠ .new := by rw [h1']; simp
  obtain ⟨hi, hs, _, hf⟩ := pass_order (c := c) (env := env) (ph := .init) h hst
  refine ⟨_, hs, h1', ?_⟩
  simp only at he
  split at he
  · unfold initFinish at he
    rw [hs.initReq] at he
    cases hr : s.initReq with
    | none => exact absurd hr h2
    | some r =>
      rw [hr] at he; simp only at he; injection he with he
      exact .inr ⟨r, rfl, he.symm⟩
  · rename_i hb
    injection he with he
    exact .inl ⟨he.symm, hf (by simpa using hb)⟩

theorem shutdownContinue_shape {c : Cfg} {env : Env} {s s' : State} (h : Inv c s) (he : shutdownContinue c env s = .ok s') :
    ∃ q, Same s q ∧ s.st = .shuttingDown ∧ ((s' = q ∧ ∃ i k, q.log = .answer .shut i false :: k) ∨
      (s.shutReq = none ∧ s' = become .shutDown q) ∨
      ∃ r, s.shutReq = some r ∧ s' = become .shutDown { q with shutReq := none, log := .replyShut r true :: q.log }) := by
  unfold shutdownContinue at he
  by_cases h1 : s.st ≠ .shuttingDown
  · rw [if_pos h1] at he; cases he
  rw [if_neg h1] at he
  have h1' : s.st = .shuttingDown := Decidable.not_not.1 h1
  have hst : s.st ≠ .new := by rw [h1']; simp
  obtain ⟨hi, hs, _, hf⟩ := pass_order (c := c) (env := env) (ph := .shut) h hst
  refine ⟨_, hs, h1', ?_⟩
  simp only at he
  split at he
  · injection he with he
    unfold shutdownFinish at he
    rw [hs.shutReq] at he
    cases hr : s.shutReq with
    | none => rw [hr] at he; exact .inr (.inl ⟨rfl, he.symm⟩)
    | some r => rw [hr] at he; exact .inr (.inr ⟨r, rfl, he.symm⟩)
  · rename_i hb
    injection he with he
    exact .inl ⟨he.symm, hf (by simpa using hb)⟩

/-- counting events other than those of polling -/
theorem same_count {s q : State} {p : Ev → Bool} (h : Same s q) (hp : ∀ ph i b, p (.ask ph i) = false ∧ p (.answer ph i b) = false ∧
    p (.joined ph i) = false ∧ p (.left ph i) = false) : q.log.countP p = s.log.countP p := by
  obtain ⟨k, hk, hall⟩ := h.log
  rw [hk, List.countP_append]
  have : k.countP p = 0 := by
    rw [List.countP_eq_zero]
    intro e he
    obtain ⟨ph, i, h1 | ⟨b, h1⟩ | h1 | h1⟩ := hall e he <;> subst h1 <;> simp [hp ph i true, hp ph i]
  omega

theorem triggers_count {c : Cfg} {x : Option Nat} {p : Ev → Bool} (hp : ∀ t y, p (.trigger t y) = false) :
    (triggers c x).countP p = 0 := by
  rw [List.countP_eq_zero]
  intro e he
  have : ∃ t, e = .trigger t x := by
    unfold triggers at he
    split at he
    · cases he
    · rcases List.mem_append.1 he with h | h
      · split at h
        · simp at h; exact ⟨_, h⟩
        · cases h
      · split at h
        · split at h
          · simp at h; exact ⟨_, h⟩
          · cases h
        · cases h
  obtain ⟨t, rfl⟩ := this
  simp [hp]

theorem start_fields (c : Cfg) (r reason : Option Nat) (s : State) :
    (shutdownStart c (noted r reason s)).log = triggers c (noted r reason s).reason ++ .became .shuttingDown :: .gotShut r reason :: s.log ∧
    (shutdownStart c (noted r reason s)).st = .shuttingDown ∧
    (shutdownStart c (noted r reason s)).initReq = s.initReq ∧
    (shutdownStart c (noted r reason s)).reason = s.reason.or reason ∧
    (shutdownStart c (noted r reason s)).shutReq = (if r = none then s.shutReq else r) := by
  obtain ⟨a1, a2, a3, a4, a5, a6⟩ := assign_fields reason
    { s with shutReq := if r = none then s.shutReq else r, log := .gotShut r reason :: s.log }
  refine ⟨?_, rfl, a5, a6, a4⟩
  have a1' : (noted r reason s).log = .gotShut r reason :: s.log := a1
  show triggers c (noted r reason s).reason ++ .became .shuttingDown :: (noted r reason s).log = _
  rw [a1']

/-- an invariant of the steps follows from what the elementary steps do -/
theorem run_ind {c : Cfg} {env : Env} {ok : Op → Prop} {P : State → Prop}
    (hstep : ∀ s s' op, Inv c s → ok op → P s → step c env s op = .ok s' → P s') (ops : List Op) :
    ∀ {s s' : State}, Inv c s → P s → (∀ op ∈ ops, ok op) → run c env s ops = .ok s' → P s' := by
  induction ops with
  | nil => intro s s' _ h _ he; injection he with he; subst he; exact h
  | cons op ops ih =>
    intro s s' hi h ho he
    unfold run at he
    split at he
    · cases he
    · rename_i s1 h1
      exact ih (step_inv hi h1) (hstep s s1 op hi (ho op (by simp)) h h1) (fun o hm => ho o (List.mem_cons_of_mem _ hm)) he

/-! ## requests -/

/-- the latest init request -/
def lastInit : List Ev → Option Nat
  | [] => none
  | .gotInit r :: _ => some r
  | _ :: l => lastInit l

structure InitCnt (s : State) : Prop where
  cnt : ∀ r, s.log.countP (isReplyInit r) + (if s.initReq = some r then 1 else 0) ≤ s.log.countP (isGotInit r)
  last : ∀ r, lastInit s.log = some r → s.initReq = some r ∨ ∃ ok, Ev.replyInit r ok ∈ s.log
  good : ∀ r, Ev.replyInit r true ∈ s.log → Ev.became .initialized ∈ s.log

theorem lastInit_app {k l : List Ev} (h : ∀ e ∈ k, ∀ r, e ≠ .gotInit r) : lastInit (k ++ l) = lastInit l := by
  induction k with
  | nil => rfl
  | cons e k ih =>
    have h1 := h e (by simp)
    have h2 := ih (fun e' he' => h e' (List.mem_cons_of_mem _ he'))
    cases e <;> simp_all [lastInit]

theorem same_mem {s q : State} (h : Same s q) {e : Ev} (hm : e ∈ q.log) (hn : ∀ ph i b, e ≠ .ask ph i ∧ e ≠ .answer ph i b ∧ e ≠ .joined ph i ∧ e ≠ .left ph i) :
    e ∈ s.log := by
  obtain ⟨k, hk, hall⟩ := h.log
  rw [hk] at hm
  rcases List.mem_append.1 hm with hm | hm
  · obtain ⟨ph, i, h1 | ⟨b, h1⟩ | h1 | h1⟩ := hall e hm
    · exact absurd h1 (hn ph i true).1
    · exact absurd h1 (hn ph i b).2.1
    · exact absurd h1 (hn ph i true).2.2.1
    · exact absurd h1 (hn ph i true).2.2.2
  · exact hm

theorem same_sub {s q : State} (h : Same s q) {e : Ev} (hm : e ∈ s.log) : e ∈ q.log := by
  obtain ⟨k, hk, _⟩ := h.log
  rw [hk]; exact List.mem_append_right _ hm

theorem initCnt_same {s q : State} (h : Same s q) (hc : InitCnt s) : InitCnt q := by
  obtain ⟨k, hk, hall⟩ := h.log
  refine ⟨?_, ?_, ?_⟩
  · intro r
    rw [same_count h (by simp [isReplyInit]), same_count h (by simp [isGotInit]), h.initReq]
    exact hc.cnt r
  · intro r hr
    rw [hk, lastInit_app (by
      intro e he r' hx
      obtain ⟨ph, i, h1 | ⟨b, h1⟩ | h1 | h1⟩ := hall e he <;> rw [h1] at hx <;> cases hx)] at hr
    rw [h.initReq]
    rcases hc.last r hr with h1 | ⟨ok, h1⟩
    · exact .inl h1
    · exact .inr ⟨ok, same_sub h h1⟩
  · intro r hr
    exact same_sub h (hc.good r (same_mem h hr (by simp)))

theorem initCnt_finish {q : State} {r : Nat} (hq : q.initReq = some r) (hc : InitCnt q) :
    InitCnt (become .initialized { q with initReq := none, log := .replyInit r true :: q.log }) := by
  refine ⟨?_, ?_, ?_⟩
  · intro r'
    have := hc.cnt r'
    simp only [become, List.countP_cons, isReplyInit, isGotInit, hq] at this ⊢
    by_cases hr : r = r' <;> simp [hr] at this ⊢ <;> omega
  · intro r' hr'
    have hr'' : lastInit q.log = some r' := hr'
    right
    rcases hc.last r' hr'' with h1 | ⟨ok, h1⟩
    · rw [hq] at h1; injection h1 with h1; subst h1; exact ⟨true, by simp [become]⟩
    · exact ⟨ok, by simp [become, h1]⟩
  · intro r' _; simp [become]

theorem initContinue_cnt {c : Cfg} {env : Env} {s s' : State} (hi : Inv c s) (hc : InitCnt s) (he : initContinue c env s = .ok s') :
    InitCnt s' := by
  obtain ⟨q, hs, _, ⟨rfl, _⟩ | ⟨r, hr, rfl⟩⟩ := initContinue_shape hi he
  · exact initCnt_same hs hc
  · exact initCnt_finish (hs.initReq.trans hr) (initCnt_same hs hc)

/-- events that have nothing to do with init requests -/
theorem initCnt_log {s q : State} (k : List Ev) (hc : InitCnt s) (hl : q.log = k ++ s.log) (hr : q.initReq = s.initReq)
    (hk : ∀ e ∈ k, (∀ r, e ≠ .gotInit r) ∧ ∀ r b, e ≠ .replyInit r b) : InitCnt q := by
  have h1 : ∀ r, k.countP (isReplyInit r) = 0 := by
    intro r; rw [List.countP_eq_zero]; intro e he
    have := (hk e he).2
    revert this; cases e <;> simp [isReplyInit]
  have h2 : ∀ r, k.countP (isGotInit r) = 0 := by
    intro r; rw [List.countP_eq_zero]; intro e he
    have := (hk e he).1
    revert this; cases e <;> simp [isGotInit]
  refine ⟨?_, ?_, ?_⟩
  · intro r
    have := hc.cnt r
    rw [hl, List.countP_append, List.countP_append, h1, h2, hr]
    omega
  · intro r hx
    rw [hl, lastInit_app (fun e he => (hk e he).1)] at hx
    rw [hr, hl]
    rcases hc.last r hx with h | ⟨ok, h⟩
    · exact .inl h
    · exact .inr ⟨ok, List.mem_append_right _ h⟩
  · intro r hx
    rw [hl] at hx ⊢
    rcases List.mem_append.1 hx with h | h
    · exact absurd rfl ((hk _ h).2 r true)
    · exact List.mem_append_right _ (hc.good r h)

theorem shutdownContinue_log {c : Cfg} {env : Env} {s s' : State} (hi : Inv c s) (he : shutdownContinue c env s = .ok s') :
    ∃ k, s'.log = k ++ s.log ∧ s'.initReq = s.initReq ∧ ∀ e ∈ k, e = .became .shutDown ∨ (∃ r, e = .replyShut r true) ∨
      ∃ ph i, e = .ask ph i ∨ (∃ b, e = .answer ph i b) ∨ e = .joined ph i ∨ e = .left ph i := by
  obtain ⟨q, hs, _, ⟨rfl, _⟩ | ⟨_, rfl⟩ | ⟨r, _, rfl⟩⟩ := shutdownContinue_shape hi he <;> obtain ⟨k, hk, hall⟩ := hs.log
  · exact ⟨k, hk, hs.initReq, fun e h => .inr (.inr (hall e h))⟩
  · refine ⟨.became .shutDown :: k, by simp [become, hk], hs.initReq, ?_⟩
    intro e h
    rcases List.mem_cons.1 h with h | h
    · exact .inl h
    · exact .inr (.inr (hall e h))
  · refine ⟨.became .shutDown :: .replyShut r true :: k, by simp [become, hk], hs.initReq, ?_⟩
    intro e h
    rcases List.mem_cons.1 h with h | h
    · exact .inl h
    · rcases List.mem_cons.1 h with h | h
      · exact .inr (.inl ⟨r, h⟩)
      · exact .inr (.inr (hall e h))

theorem mem_triggers {c : Cfg} {x : Option Nat} {e : Ev} (h : e ∈ triggers c x) : ∃ t, e = .trigger t x := by
  unfold triggers at h
  split at h
  · cases h
  · rcases List.mem_append.1 h with h | h
    · split at h
      · simp at h; exact ⟨_, h⟩
      · cases h
    · split at h
      · split at h
        · simp at h; exact ⟨_, h⟩
        · cases h
      · cases h

theorem shutRequest_log {c : Cfg} {env : Env} {s s' : State} {r reason : Option Nat} (hi : Inv c s) (hl : s.listens)
    (hn : r = none → s.st ≠ .shuttingDown) (he : shutdownContinue c env (shutdownStart c (noted r reason s)) = .ok s') :
    ∃ k, s'.log = k ++ s.log ∧ s'.initReq = s.initReq ∧ ∀ e ∈ k, e = .became .shutDown ∨ (∃ r, e = .replyShut r true) ∨
      (∃ t x, e = .trigger t x) ∨ e = .became .shuttingDown ∨ e = .gotShut r reason ∨
      ∃ ph i, e = .ask ph i ∨ (∃ b, e = .answer ph i b) ∨ e = .joined ph i ∨ e = .left ph i := by
  obtain ⟨k, hk, hr, hall⟩ := shutdownContinue_log (noted_start_inv hi hl hn) he
  obtain ⟨f1, f2, f3, _, _⟩ := start_fields c r reason s
  refine ⟨k ++ (triggers c (noted r reason s).reason ++ [.became .shuttingDown, .gotShut r reason]), ?_, hr.trans f3, ?_⟩
  · rw [hk, f1]; simp
  · intro e h
    rcases List.mem_append.1 h with h | h
    · rcases hall e h with h | h | h
      · exact .inl h
      · exact .inr (.inl h)
      · exact .inr (.inr (.inr (.inr (.inr h))))
    · rcases List.mem_append.1 h with h | h
      · obtain ⟨t, h⟩ := mem_triggers h
        exact .inr (.inr (.inl ⟨t, _, h⟩))
      · simp at h
        rcases h with h | h
        · exact .inr (.inr (.inr (.inl h)))
        · exact .inr (.inr (.inr (.inr (.inl h))))

theorem step_initCnt {c : Cfg} {env : Env} {s s' : State} {op : Op} (hi : Inv c s) (ho : op ≠ .registryFailed) (hc : InitCnt s)
    (he : step c env s op = .ok s') : InitCnt s' := by
  cases op with
  | activate =>
    simp only [step] at he
    split at he
    · cases he
    · injection he with he; subst he
      exact initCnt_log [.became .initializing] hc rfl rfl (by simp)
  | initRequest r =>
    simp only [step] at he
    split at he
    · rename_i hl
      have h1 : InitCnt { s with initReq := some r, log := .gotInit r :: s.log } := by
        refine ⟨?_, ?_, ?_⟩
        · intro r'
          have := hc.cnt r'
          simp only [List.countP_cons, isReplyInit, isGotInit] at this ⊢
          by_cases hr : r = r'
          · subst hr; simp; split at this <;> omega
          · have hr' : ¬ some r = some r' := by simpa using hr
            simp [hr]
            split at this <;> omega
        · intro r' hr'
          simp only [lastInit] at hr'
          exact .inl hr'
        · intro r' hr'
          simp at hr'
          have := hc.good r' hr'
          simp [this]
      have h0 := inv_initReq (inv_neutral hi (e := .gotInit r) trivial hl.1 trivial) hl.1 (some r)
      split at he
      · split at he
        · cases he
        exact initContinue_cnt h0 h1 he
      · injection he with he; subst he; exact h1
    · injection he with he; subst he; exact hc
  | start =>
    simp only [step] at he
    split at he
    · injection he with he; subst he
      exact initCnt_log [.became .operational] hc rfl rfl (by simp)
    · injection he with he; subst he; exact hc
  | shutRequest r reason =>
    simp only [step] at he
    split at he
    · rename_i hl
      obtain ⟨k, hk, hr, hall⟩ := shutRequest_log hi hl.1 hl.2 he
      refine initCnt_log k hc hk hr ?_
      intro e h
      rcases hall e h with h | ⟨r, h⟩ | ⟨t, x, h⟩ | h | h | ⟨ph, i, h | ⟨b, h⟩ | h | h⟩ <;> subst h <;> simp
    · injection he with he; subst he; exact hc
  | progress ph =>
    cases ph with
    | init => exact initContinue_cnt hi hc he
    | shut =>
      obtain ⟨k, hk, hr, hall⟩ := shutdownContinue_log hi he
      refine initCnt_log k hc hk hr ?_
      intro e h
      rcases hall e h with h | ⟨r, h⟩ | ⟨ph, i, h | ⟨b, h⟩ | h | h⟩ <;> subst h <;> simp
  | linkRefused =>
    simp only [step] at he
    split at he
    · split at he
      · rename_i r hr
        injection he with he; subst he
        refine ⟨?_, ?_, ?_⟩
        · intro r'
          have := hc.cnt r'
          simp only [List.countP_cons, isReplyInit, isGotInit, hr] at this ⊢
          by_cases hx : r = r' <;> simp [hx] at this ⊢ <;> omega
        · intro r' hr'
          have hr'' : lastInit s.log = some r' := hr'
          right
          rcases hc.last r' hr'' with h1 | ⟨ok, h1⟩
          · rw [hr] at h1; injection h1 with h1; subst h1; exact ⟨false, by simp⟩
          · exact ⟨ok, by simp [h1]⟩
        · intro r' hr'
          simp at hr'
          have := hc.good r' hr'
          simp [this]
      · injection he with he; subst he; exact hc
    · injection he with he; subst he; exact hc
  | registryFailed => exact absurd rfl ho
  | unlinkFailed =>
    simp only [step] at he
    split at he
    · split at he
      · rename_i r hr
        injection he with he; subst he
        exact initCnt_log [.replyShut r false] hc rfl rfl (by simp)
      · injection he with he; subst he; exact hc
    · injection he with he; subst he; exact hc
  | effect e =>
    simp only [step] at he
    split at he
    · rename_i hl
      injection he with he; subst he
      exact initCnt_same (applyEffs_inv [e] hi hl.1).2 hc
    · injection he with he; subst he; exact hc

structure ShutCnt (s : State) : Prop where
  cnt : ∀ r, s.log.countP (isReplyShut r) + (if s.shutReq = some r then 1 else 0) ≤ s.log.countP (isGotShut r)
  late : s.st ≠ .shutDown → ∀ r ok, Ev.replyShut r ok ∉ s.log

theorem shutCnt_log {s q : State} (k : List Ev) (hc : ShutCnt s) (hl : q.log = k ++ s.log) (hr : q.shutReq = s.shutReq)
    (hst : q.st ≠ .shutDown → s.st ≠ .shutDown)
    (hk : ∀ e ∈ k, (∀ r x, e ≠ .gotShut r x) ∧ ∀ r b, e ≠ .replyShut r b) : ShutCnt q := by
  have h1 : ∀ r, k.countP (isReplyShut r) = 0 := by
    intro r; rw [List.countP_eq_zero]; intro e he
    have := (hk e he).2
    revert this; cases e <;> simp [isReplyShut]
  have h2 : ∀ r, k.countP (isGotShut r) = 0 := by
    intro r; rw [List.countP_eq_zero]; intro e he
    have := (hk e he).1
    revert this; cases e <;> simp [isGotShut]
  refine ⟨?_, ?_⟩
  · intro r
    have := hc.cnt r
    rw [hl, List.countP_append, List.countP_append, h1, h2, hr]
    omega
  · intro hx r ok hm
    rw [hl] at hm
    rcases List.mem_append.1 hm with h | h
    · exact (hk _ h).2 r ok rfl
    · exact hc.late (hst hx) r ok h

theorem shutCnt_same {s q : State} (h : Same s q) (hc : ShutCnt s) : ShutCnt q := by
  obtain ⟨k, hk, hall⟩ := h.log
  refine shutCnt_log k hc hk h.shutReq (by rw [h.st]; exact id) ?_
  intro e he
  obtain ⟨ph, i, h1 | ⟨b, h1⟩ | h1 | h1⟩ := hall e he <;> subst h1 <;> simp

theorem shutdownContinue_cnt {c : Cfg} {env : Env} {s s' : State} (hi : Inv c s) (hc : ShutCnt s)
    (he : shutdownContinue c env s = .ok s') : ShutCnt s' := by
  obtain ⟨q, hs, _, ⟨rfl, _⟩ | ⟨_, rfl⟩ | ⟨r, hr, rfl⟩⟩ := shutdownContinue_shape hi he
  · exact shutCnt_same hs hc
  · exact shutCnt_log [.became .shutDown] (shutCnt_same hs hc) rfl rfl (by simp [become]) (by simp)
  · have hq := shutCnt_same hs hc
    have hqr := hs.shutReq.trans hr
    refine ⟨?_, by simp [become]⟩
    intro r'
    have := hq.cnt r'
    simp only [become, List.countP_cons, isReplyShut, isGotShut, hqr] at this ⊢
    by_cases hx : r = r' <;> simp [hx] at this ⊢ <;> omega

theorem initContinue_log {c : Cfg} {env : Env} {s s' : State} (hi : Inv c s) (he : initContinue c env s = .ok s') :
    ∃ k, s'.log = k ++ s.log ∧ s'.shutReq = s.shutReq ∧ s'.reason = s.reason ∧ (s'.st = s.st ∨ s'.st = .initialized) ∧ s.st = .initializing ∧
      ∀ e ∈ k, e = .became .initialized ∨ (∃ r, e = .replyInit r true) ∨
      ∃ ph i, e = .ask ph i ∨ (∃ b, e = .answer ph i b) ∨ e = .joined ph i ∨ e = .left ph i := by
  obtain ⟨q, hs, hst, ⟨rfl, _⟩ | ⟨r, _, rfl⟩⟩ := initContinue_shape hi he <;> obtain ⟨k, hk, hall⟩ := hs.log
  · exact ⟨k, hk, hs.shutReq, hs.reason, .inl hs.st, hst, fun e h => .inr (.inr (hall e h))⟩
  · refine ⟨.became .initialized :: .replyInit r true :: k, by simp [become, hk], hs.shutReq, hs.reason, .inr rfl, hst, ?_⟩
    intro e h
    rcases List.mem_cons.1 h with h | h
    · exact .inl h
    · rcases List.mem_cons.1 h with h | h
      · exact .inr (.inl ⟨r, h⟩)
      · exact .inr (.inr (hall e h))

theorem initContinue_shutCnt {c : Cfg} {env : Env} {s s' : State} (hi : Inv c s) (hc : ShutCnt s)
    (he : initContinue c env s = .ok s') : ShutCnt s' := by
  obtain ⟨k, hk, hr, _, _, hst, hall⟩ := initContinue_log hi he
  refine shutCnt_log k hc hk hr (fun _ => by rw [hst]; simp) ?_
  intro e h
  rcases hall e h with h | ⟨r, h⟩ | ⟨ph, i, h | ⟨b, h⟩ | h | h⟩ <;> subst h <;> simp

theorem step_shutCnt {c : Cfg} {env : Env} {s s' : State} {op : Op} (hi : Inv c s) (ho : op ≠ .unlinkFailed) (hc : ShutCnt s)
    (he : step c env s op = .ok s') : ShutCnt s' := by
  cases op with
  | activate =>
    simp only [step] at he
    split at he
    · cases he
    · rename_i hn
      injection he with he; subst he
      have hn' : s.st = .new := Decidable.not_not.1 hn
      exact shutCnt_log [.became .initializing] hc rfl rfl (by rw [hn']; simp) (by simp)
  | initRequest r =>
    simp only [step] at he
    split at he
    · rename_i hl
      have h1 : ShutCnt { s with initReq := some r, log := .gotInit r :: s.log } :=
        shutCnt_log [.gotInit r] hc rfl rfl id (by simp)
      have h0 := inv_initReq (inv_neutral hi (e := .gotInit r) trivial hl.1 trivial) hl.1 (some r)
      split at he
      · split at he
        · cases he
        exact initContinue_shutCnt h0 h1 he
      · injection he with he; subst he; exact h1
    · injection he with he; subst he; exact hc
  | start =>
    simp only [step] at he
    split at he
    · rename_i hst
      injection he with he; subst he
      exact shutCnt_log [.became .operational] hc rfl rfl (by rw [hst]; simp) (by simp)
    · injection he with he; subst he; exact hc
  | shutRequest r reason =>
    simp only [step] at he
    split at he
    · rename_i hl
      refine shutdownContinue_cnt (noted_start_inv (reason := reason) hi hl.1 hl.2) ?_ he
      obtain ⟨f1, f2, f3, _, f5⟩ := start_fields c r reason s
      refine ⟨?_, ?_⟩
      · intro r'
        have := hc.cnt r'
        rw [f1, f5, List.countP_append, List.countP_append, triggers_count (by simp [isReplyShut]), triggers_count (by simp [isGotShut])]
        simp only [List.countP_cons, isReplyShut, isGotShut]
        cases r with
        | none => simp at this ⊢; omega
        | some r =>
          by_cases hx : r = r'
          · subst hx; simp; split at this <;> omega
          · simp [hx]; split at this <;> omega
      · intro _ r' ok hm
        rw [f1] at hm
        rcases List.mem_append.1 hm with hm | hm
        · obtain ⟨t, hm⟩ := mem_triggers hm; cases hm
        · simp at hm; exact hc.late hl.1.2 r' ok hm
    · injection he with he; subst he; exact hc
  | progress ph =>
    cases ph with
    | init => exact initContinue_shutCnt hi hc he
    | shut => exact shutdownContinue_cnt hi hc he
  | linkRefused =>
    simp only [step] at he
    split at he
    · split at he
      · rename_i r hr
        injection he with he; subst he
        exact shutCnt_log [.replyInit r false] hc rfl rfl id (by simp)
      · injection he with he; subst he; exact hc
    · injection he with he; subst he; exact hc
  | registryFailed =>
    simp only [step] at he
    split at he
    · split at he
      · rename_i r hr
        injection he with he; subst he
        exact shutCnt_log [.replyInit r false] hc rfl rfl id (by simp)
      · cases he
    · injection he with he; subst he; exact hc
  | unlinkFailed => exact absurd rfl ho
  | effect e =>
    simp only [step] at he
    split at he
    · rename_i hl
      injection he with he; subst he
      exact shutCnt_same (applyEffs_inv [e] hi hl.1).2 hc
    · injection he with he; subst he; exact hc

/-! ## growth of the log, reasons, triggers -/

theorem step_log {c : Cfg} {env : Env} {s s' : State} {op : Op} (hi : Inv c s) (he : step c env s op = .ok s') :
    ∃ k, s'.log = k ++ s.log ∧ (∀ r x, Ev.gotShut r x ∈ k → op = .shutRequest r x) ∧
      ((∃ t x, Ev.trigger t x ∈ k) ∨ Ev.became .shuttingDown ∈ k ∨ s'.reason ≠ s.reason → ∃ r x, op = .shutRequest r x ∧ s.listens ∧
        (r = none → s.st ≠ .shuttingDown)) := by
  cases op with
  | activate =>
    simp only [step] at he
    split at he
    · cases he
    · injection he with he; subst he
      exact ⟨[.became .initializing], rfl, by simp, by simp [become]⟩
  | initRequest r =>
    simp only [step] at he
    split at he
    · rename_i hl
      have h0 := inv_initReq (inv_neutral hi (e := .gotInit r) trivial hl.1 trivial) hl.1 (some r)
      split at he
      · split at he
        · cases he
        obtain ⟨k, hk, _, hre, _, _, hall⟩ := initContinue_log h0 he
        refine ⟨k ++ [.gotInit r], by rw [hk]; simp, ?_, ?_⟩
        · intro r' x hm
          rcases List.mem_append.1 hm with h | h
          · rcases hall _ h with h | ⟨r, h⟩ | ⟨ph, i, h | ⟨b, h⟩ | h | h⟩ <;> cases h
          · simp at h
        · rintro (⟨t, x, hm⟩ | hm | hm)
          · rcases List.mem_append.1 hm with h | h
            · rcases hall _ h with h | ⟨r, h⟩ | ⟨ph, i, h | ⟨b, h⟩ | h | h⟩ <;> cases h
            · simp at h
          · rcases List.mem_append.1 hm with h | h
            · rcases hall _ h with h | ⟨r, h⟩ | ⟨ph, i, h | ⟨b, h⟩ | h | h⟩ <;> cases h
            · simp at h
          · exact absurd hre hm
      · injection he with he; subst he
        exact ⟨[.gotInit r], rfl, by simp, by simp⟩
    · injection he with he; subst he
      exact ⟨[], rfl, by simp, by simp⟩
  | start =>
    simp only [step] at he
    split at he
    · injection he with he; subst he
      exact ⟨[.became .operational], rfl, by simp, by simp [become]⟩
    · injection he with he; subst he
      exact ⟨[], rfl, by simp, by simp⟩
  | shutRequest r reason =>
    simp only [step] at he
    split at he
    · rename_i hl
      obtain ⟨k, hk, hr, hall⟩ := shutRequest_log hi hl.1 hl.2 he
      refine ⟨k, hk, ?_, fun _ => ⟨r, reason, rfl, hl⟩⟩
      intro r' x hm
      rcases hall _ hm with h | ⟨r, h⟩ | ⟨t, x, h⟩ | h | h | ⟨ph, i, h | ⟨b, h⟩ | h | h⟩ <;> cases h
      rfl
    · injection he with he; subst he
      exact ⟨[], rfl, by simp, by simp⟩
  | progress ph =>
    cases ph with
    | init =>
      obtain ⟨k, hk, _, hre, _, _, hall⟩ := initContinue_log hi he
      refine ⟨k, hk, ?_, ?_⟩
      · intro r' x h
        rcases hall _ h with h | ⟨r, h⟩ | ⟨ph, i, h | ⟨b, h⟩ | h | h⟩ <;> cases h
      · rintro (⟨t, x, h⟩ | h | hm)
        · rcases hall _ h with h | ⟨r, h⟩ | ⟨ph, i, h | ⟨b, h⟩ | h | h⟩ <;> cases h
        · rcases hall _ h with h | ⟨r, h⟩ | ⟨ph, i, h | ⟨b, h⟩ | h | h⟩ <;> cases h
        · exact absurd hre hm
    | shut =>
      obtain ⟨k, hk, _, hall⟩ := shutdownContinue_log hi he
      refine ⟨k, hk, ?_, ?_⟩
      · intro r' x h
        rcases hall _ h with h | ⟨r, h⟩ | ⟨ph, i, h | ⟨b, h⟩ | h | h⟩ <;> cases h
      · rintro (⟨t, x, h⟩ | h | hm)
        · rcases hall _ h with h | ⟨r, h⟩ | ⟨ph, i, h | ⟨b, h⟩ | h | h⟩ <;> cases h
        · rcases hall _ h with h | ⟨r, h⟩ | ⟨ph, i, h | ⟨b, h⟩ | h | h⟩ <;> cases h
        · obtain ⟨q, hs, _, ⟨rfl, _⟩ | ⟨_, rfl⟩ | ⟨r, hr, rfl⟩⟩ := shutdownContinue_shape hi he <;> exact absurd hs.reason hm
  | linkRefused =>
    simp only [step] at he
    split at he
    · split at he
      · rename_i r hr
        injection he with he; subst he
        exact ⟨[.replyInit r false], rfl, by simp, by simp⟩
      · injection he with he; subst he; exact ⟨[], rfl, by simp, by simp⟩
    · injection he with he; subst he; exact ⟨[], rfl, by simp, by simp⟩
  | registryFailed =>
    simp only [step] at he
    split at he
    · split at he
      · rename_i r hr
        injection he with he; subst he
        exact ⟨[.replyInit r false], rfl, by simp, by simp⟩
      · cases he
    · injection he with he; subst he; exact ⟨[], rfl, by simp, by simp⟩
  | unlinkFailed =>
    simp only [step] at he
    split at he
    · split at he
      · rename_i r hr
        injection he with he; subst he
        exact ⟨[.replyShut r false], rfl, by simp, by simp⟩
      · injection he with he; subst he; exact ⟨[], rfl, by simp, by simp⟩
    · injection he with he; subst he; exact ⟨[], rfl, by simp, by simp⟩
  | effect e =>
    simp only [step] at he
    split at he
    · rename_i hl
      injection he with he; subst he
      have hs := (applyEffs_inv [e] hi hl.1).2
      obtain ⟨k, hk, hall⟩ := hs.log
      refine ⟨k, hk, ?_, ?_⟩
      · intro r' x h
        rcases hall _ h with ⟨ph, i, h | ⟨b, h⟩ | h | h⟩ <;> cases h
      · rintro (⟨t, x, h⟩ | h | hm)
        · rcases hall _ h with ⟨ph, i, h | ⟨b, h⟩ | h | h⟩ <;> cases h
        · rcases hall _ h with ⟨ph, i, h | ⟨b, h⟩ | h | h⟩ <;> cases h
        · exact absurd hs.reason hm
    · injection he with he; subst he; exact ⟨[], rfl, by simp, by simp⟩

end Verif.Lifecycle
