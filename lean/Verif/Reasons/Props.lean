import Verif.Reasons.Model

/-!
# Property C64: a shutdown reason leads to the root cause
-/

namespace Verif.Reasons

/-! ## Specification -/

/-- the actor itself, its supervisor, or one of its children -/
def Close (c : Cfg) (v y : Nat) : Prop := y = v ∨ c.par y = some v ∨ c.par v = some y

/-- `x` passes on what `y` has reported about an actor `v` close to it, which is `x` or a child of `x` -/
def Step (c : Cfg) (x y : Nat) : Prop := ∃ v, (x = v ∨ c.par v = some x) ∧ Close c v y

/-- reading the chain of errors means walking through the tree, from actor to actor, to one of the `causes` -/
inductive Trail (c : Cfg) (causes : List (Nat × Err)) : Nat → Err → Prop where
  | cause {b : Nat} {e : Err} : (b, e) ∈ causes → Trail c causes b e
  | pass {x y : Nat} {code : Code} {n : Err} : Trail c causes y n → Step c x y → Trail c causes x (.wrap x code n)

/-! ## Invariant -/

/-- an error that is right for the actor -/
def Good (c : Cfg) (o : List (Nat × Err)) (v : Nat) (e : Err) : Prop := ∃ x, Trail c o x e ∧ Close c v x

theorem Trail.mono {c : Cfg} {o o' : List (Nat × Err)} (h : ∀ p ∈ o, p ∈ o') {x : Nat} {e : Err} (ht : Trail c o x e) :
    Trail c o' x e := by
  induction ht with
  | cause hm => exact .cause (h _ hm)
  | pass _ hs ih => exact .pass ih hs

theorem Good.mono {c : Cfg} {o o' : List (Nat × Err)} (h : ∀ p ∈ o, p ∈ o') {v : Nat} {e : Err} (hg : Good c o v e) :
    Good c o' v e := by
  obtain ⟨x, h1, h2⟩ := hg
  exact ⟨x, h1.mono h, h2⟩

/-- a message is right -/
def GoodMsg (c : Cfg) (o : List (Nat × Err)) : Msg → Prop
  | .trigger p v e => (p = v ∨ c.par v = some p) ∧ Good c o v e
  | .request a e => Good c o a e ∧ ∃ p e', c.par a = some p ∧ e = .wrap p .supervisorShutdown e'
  | .initFailed a e => Good c o a e

def hist (s : State) : List (Nat × Err) := s.causes ++ s.dropped

structure InvO (c : Cfg) (o : List (Nat × Err)) (s : State) : Prop where
  reason : ∀ a r, s.reason a = some r → Good c o a r
  why : ∀ a r, s.why a = some r → Good c o a r
  msgs : ∀ m ∈ s.msgs, GoodMsg c o m
  head : ∀ a r p, s.reason a = some r → c.par a = some p → ∃ e, r = .wrap p .supervisorShutdown e

theorem GoodMsg.mono {c : Cfg} {o o' : List (Nat × Err)} (h : ∀ p ∈ o, p ∈ o') {m : Msg} (hg : GoodMsg c o m) : GoodMsg c o' m := by
  cases m with
  | trigger p v e => exact ⟨hg.1, hg.2.mono h⟩
  | request a e => exact ⟨Good.mono h hg.1, hg.2⟩
  | initFailed a e => exact Good.mono h hg

theorem InvO.mono {c : Cfg} {o o' : List (Nat × Err)} (h : ∀ p ∈ o, p ∈ o') {s : State} (hi : InvO c o s) : InvO c o' s :=
  ⟨fun a r hr => (hi.reason a r hr).mono h, fun a r hr => (hi.why a r hr).mono h, fun m hm => (hi.msgs m hm).mono h, hi.head⟩

/-- only these fields matter -/
theorem InvO.congr {c : Cfg} {o : List (Nat × Err)} {s s' : State} (hi : InvO c o s) (h1 : s'.reason = s.reason)
    (h2 : s'.why = s.why) (h3 : s'.msgs = s.msgs) : InvO c o s' :=
  ⟨by rw [h1]; exact hi.reason, by rw [h2]; exact hi.why, by rw [h3]; exact hi.msgs, by rw [h1]; exact hi.head⟩

theorem InvO.put {c : Cfg} {o : List (Nat × Err)} {s s' : State} {m : Msg} (hi : InvO c o s) (hm : GoodMsg c o m)
    (h1 : s'.reason = s.reason) (h2 : s'.why = s.why) (h3 : s'.msgs = s.msgs ++ [m]) : InvO c o s' := by
  refine ⟨by rw [h1]; exact hi.reason, by rw [h2]; exact hi.why, ?_, by rw [h1]; exact hi.head⟩
  intro m' hm'
  rw [h3, List.mem_append, List.mem_singleton] at hm'
  rcases hm' with hm' | rfl
  · exact hi.msgs m' hm'
  · exact hm

theorem up_ok (c : Cfg) (a : Nat) : up c a = a ∨ c.par a = some (up c a) := by
  cases h : c.par a with
  | none => left; simp [up, h]
  | some p => right; simp [up, h]

theorem good_up {c : Cfg} {o : List (Nat × Err)} {a : Nat} {e : Err} {code : Code} (h : Good c o a e) :
    Good c o a (.wrap (up c a) code e) ∧ Good c o (up c a) (.wrap (up c a) code e) := by
  obtain ⟨y, h1, h2⟩ := h
  have ht : Trail c o (up c a) (.wrap (up c a) code e) := .pass h1 ⟨a, up_ok c a, h2⟩
  refine ⟨⟨_, ht, ?_⟩, ⟨_, ht, .inl rfl⟩⟩
  rcases up_ok c a with h | h
  · exact .inl h
  · exact .inr (.inr h)

/-- an actor wraps an error about itself -/
theorem good_self {c : Cfg} {o : List (Nat × Err)} {a : Nat} {e : Err} {code : Code} (h : Good c o a e) :
    Trail c o a (.wrap a code e) := by
  obtain ⟨y, h1, h2⟩ := h
  exact .pass h1 ⟨a, .inl rfl, h2⟩

theorem inv_doShutdown {c : Cfg} {o : List (Nat × Err)} {s : State} {a : Nat} {e : Err} (hi : InvO c o s) (he : Good c o a e) :
    InvO c o (doShutdown c a e s) := by
  simp only [doShutdown]
  split
  · exact hi
  · exact hi.put (m := .trigger (up c a) a e) ⟨up_ok c a, he⟩ rfl rfl rfl

theorem inv_shutdownStart {c : Cfg} {o : List (Nat × Err)} {s : State} {a : Nat} {e : Err} (hi : InvO c o s) (he : Good c o a e)
    (hh : ∀ p, c.par a = some p → ∃ e', e = .wrap p .supervisorShutdown e') : InvO c o (shutdownStart c a e s) := by
  have hr : Good c o a ((s.reason a).getD e) := by
    cases h : s.reason a with
    | none => exact he
    | some r => exact hi.reason a r h
  have h0 : InvO c o { s with reason := upd s.reason a (some ((s.reason a).getD e)), st := upd s.st a .shuttingDown } := by
    refine ⟨?_, hi.why, hi.msgs, ?_⟩
    · intro b r hb
      simp only [upd] at hb
      split at hb
      · rename_i hba
        simp only [Option.some.injEq] at hb
        subst hb; subst hba
        exact hr
      · exact hi.reason b r hb
    · intro b r p hb hp
      simp only [upd] at hb
      split at hb
      · rename_i hba
        simp only [Option.some.injEq] at hb
        subst hb; subst hba
        cases h : s.reason b with
        | none => exact hh p hp
        | some r => exact hi.head b r p h hp
      · exact hi.head b r p hb hp
  simp only [shutdownStart]
  cases hp : c.par a with
  | none => exact h0
  | some p =>
    simp only
    have hm : ∀ code, GoodMsg c o (.trigger p p (.wrap a code ((s.reason a).getD e))) :=
      fun code => ⟨.inl rfl, a, good_self hr, .inr (.inl hp)⟩
    split
    · exact h0
    · have h1 : InvO c o (if (c.escalate a && ((s.reason a).getD e).root.code.bad) = true
          then State.put (.trigger p p (.wrap a .failureEscalation ((s.reason a).getD e)))
            { s with reason := upd s.reason a (some ((s.reason a).getD e)), st := upd s.st a .shuttingDown }
          else { s with reason := upd s.reason a (some ((s.reason a).getD e)), st := upd s.st a .shuttingDown }) := by
        split
        · exact h0.put (hm _) rfl rfl rfl
        · exact h0
      split
      · exact h1.put (hm _) rfl rfl rfl
      · exact h1

theorem inv_why {c : Cfg} {o : List (Nat × Err)} {s : State} {a : Nat} {e : Err} (hi : InvO c o s) (he : Good c o a e) (ak : Nat → Nat → Bool) :
    InvO c o { s with asked := ak, why := upd s.why a (some e) } := by
  refine ⟨hi.reason, ?_, hi.msgs, hi.head⟩
  intro b r hb
  simp only [upd] at hb
  split at hb
  · rename_i hba
    simp only [Option.some.injEq] at hb
    subst hb; subst hba
    exact he
  · exact hi.why b r hb

/-- `y`: what is reported about `v`, or about the supervisor itself -/
theorem inv_requestShutdown {c : Cfg} {o : List (Nat × Err)} {s : State} {p v : Nat} {e : Err} (hi : InvO c o s)
    (hp : p = v ∨ c.par v = some p) (he : Good c o v e ∨ (v ≠ p ∧ Good c o p e)) : InvO c o (requestShutdown c p v e s) := by
  simp only [requestShutdown]
  split
  · exact hi
  · split
    · rename_i hv
      subst hv
      have he : Good c o v e := by
        rcases he with h | h
        · exact h
        · exact absurd rfl h.1
      split
      · exact (inv_doShutdown hi he).congr rfl rfl rfl
      · split
        · exact hi.congr rfl rfl rfl
        · rename_i hn _
          exact inv_why (inv_shutdownStart hi he (by rw [hn]; simp)) he _
    · rename_i hv
      have hpv : c.par v = some p := by
        rcases hp with h | h
        · exact absurd h.symm hv
        · exact h
      refine hi.put (m := .request v (.wrap p .supervisorShutdown e)) ?_ rfl rfl rfl
      refine ⟨⟨p, ?_, .inr (.inr hpv)⟩, p, e, hpv, rfl⟩
      rcases he with ⟨y, h1, h2⟩ | ⟨_, y, h1, h2⟩
      · exact .pass h1 ⟨v, .inr hpv, h2⟩
      · exact .pass h1 ⟨p, .inl rfl, h2⟩

theorem inv_onInitFailed {c : Cfg} {o : List (Nat × Err)} {s : State} {a : Nat} {e : Err} (hi : InvO c o s) (he : Good c o a e) :
    InvO c o (onInitFailed c a e s) := by
  simp only [onInitFailed]
  split
  · split
    · split
      · rename_i ha
        rw [← ha]
        exact inv_doShutdown hi he
      · exact hi.put (m := .initFailed (up c a) (.wrap (up c a) .failureEscalation e)) (good_up he).2 rfl rfl rfl
    · exact inv_doShutdown hi (good_up he).2
  · exact inv_doShutdown hi (good_up he).1

theorem inv_deliver {c : Cfg} {o : List (Nat × Err)} {s : State} {m : Msg} (hi : InvO c o s) (hm : GoodMsg c o m) :
    InvO c o (deliver c m s) := by
  cases m with
  | trigger p v e => exact inv_requestShutdown hi hm.1 (.inl hm.2)
  | request a e =>
    obtain ⟨hg, p, e', hp, he⟩ := hm
    refine (inv_why (inv_shutdownStart hi hg ?_) hg _).congr rfl rfl rfl
    intro p' hp'
    rw [hp] at hp'
    cases hp'
    exact ⟨e', he⟩
  | initFailed a e => exact inv_onInitFailed hi hm

theorem good_new {c : Cfg} {o : List (Nat × Err)} {a : Nat} {e : Err} (h : (a, e) ∈ o) : Good c o a e := ⟨a, .cause h, .inl rfl⟩

theorem hist_doShutdown (c : Cfg) (a : Nat) (e : Err) (s : State) : hist (doShutdown c a e s) = hist s := by
  simp only [doShutdown]; split <;> rfl

theorem hist_shutdownStart (c : Cfg) (a : Nat) (e : Err) (s : State) : hist (shutdownStart c a e s) = hist s := by
  simp only [shutdownStart]
  split
  · rfl
  · split
    · rfl
    · split <;> split <;> rfl

theorem hist_requestShutdown (c : Cfg) (p v : Nat) (e : Err) (s : State) : hist (requestShutdown c p v e s) = hist s := by
  simp only [requestShutdown]
  split
  · rfl
  · split
    · split
      · exact hist_doShutdown c p e s
      · split
        · rfl
        · exact hist_shutdownStart c p e s
    · rfl

theorem hist_onInitFailed (c : Cfg) (a : Nat) (e : Err) (s : State) : hist (onInitFailed c a e s) = hist s := by
  simp only [onInitFailed]
  split
  · split
    · split
      · exact hist_doShutdown ..
      · rfl
    · exact hist_doShutdown ..
  · exact hist_doShutdown ..

theorem hist_deliver (c : Cfg) (m : Msg) (s : State) : hist (deliver c m s) = hist s := by
  cases m with
  | trigger p v e => exact hist_requestShutdown ..
  | request a e => exact hist_shutdownStart c a e s
  | initFailed a e => exact hist_onInitFailed ..

theorem inv_lostInInit {c : Cfg} {s : State} {p v : Nat} (hi : InvO c (hist s) s) :
    InvO c (hist (lostInInit c p v s)) (lostInInit c p v s) := by
  simp only [lostInInit]
  split
  · split
    · split
      · refine (hi.mono (o' := hist { s with dropped := (p, .leaf p .failureEscalation) :: s.dropped }) ?_).put
          (m := .initFailed p (.leaf p .failureEscalation)) (good_new ?_) rfl rfl rfl
        · intro q hq; simp only [hist, List.mem_append, List.mem_cons] at hq ⊢; grind
        · simp [hist]
      · exact hi
    · have hd : (doShutdown c p (.leaf p .childDown) s).dropped = s.dropped := by simp only [doShutdown]; split <;> rfl
      have hc : (doShutdown c p (.leaf p .childDown) s).causes = s.causes := by simp only [doShutdown]; split <;> rfl
      refine InvO.congr (inv_doShutdown (hi.mono ?_) (good_new ?_)) rfl rfl rfl
      · intro q hq
        simp only [hist, List.mem_append, List.mem_cons, hd, hc] at hq ⊢; grind
      · simp [hist]
  · exact hi

theorem inv_lostSpawned {c : Cfg} {s : State} {p v : Nat} {esc : Bool} (hi : InvO c (hist s) s) (hp : c.par v = some p) :
    InvO c (hist (lostSpawned c p v esc s)) (lostSpawned c p v esc s) := by
  simp only [lostSpawned]
  split
  · exact hi
  · rename_i r hr
    split
    · refine hi.put (m := .trigger p p (.wrap p .failureEscalation r)) ⟨.inl rfl, p, ?_, .inl rfl⟩ rfl rfl rfl
      obtain ⟨y, k1, k2⟩ := hi.reason v r hr
      exact .pass k1 ⟨v, .inr hp, k2⟩
    · exact hi

theorem inv_step {c : Cfg} {s : State} (op : Op) (hi : InvO c (hist s) s) : InvO c (hist (step c s op)) (step c s op) := by
  have hcs : ∀ a e, (doShutdown c a e s).dropped = s.dropped ∧ (doShutdown c a e s).causes = s.causes := by
    intro a e; simp only [doShutdown]; split <;> exact ⟨rfl, rfl⟩
  have hcause : ∀ a e, InvO c (hist { doShutdown c a e s with causes := (a, e) :: s.causes })
      { doShutdown c a e s with causes := (a, e) :: s.causes } := by
    intro a e
    refine InvO.congr (inv_doShutdown (hi.mono ?_) (good_new ?_)) rfl rfl rfl
    · intro q hq; simp only [hist, List.mem_append, List.mem_cons, (hcs a e).1] at hq ⊢; grind
    · simp [hist]
  have hdrop : ∀ a e, InvO c (hist { doShutdown c a e s with dropped := (a, e) :: s.dropped })
      { doShutdown c a e s with dropped := (a, e) :: s.dropped } := by
    intro a e
    refine InvO.congr (inv_doShutdown (hi.mono ?_) (good_new ?_)) rfl rfl rfl
    · intro q hq; simp only [hist, List.mem_append, List.mem_cons, (hcs a e).2] at hq ⊢; grind
    · simp [hist]
  have hfail : ∀ a e ir, InvO c (hist { s with causes := (a, e) :: s.causes, msgs := s.msgs ++ [.initFailed a e], initReq := ir })
      { s with causes := (a, e) :: s.causes, msgs := s.msgs ++ [.initFailed a e], initReq := ir } := by
    intro a e ir
    refine InvO.put (s := s) (m := .initFailed a e) (hi.mono ?_) (good_new ?_) rfl rfl rfl
    · intro q hq; simp only [hist, List.mem_append, List.mem_cons] at hq ⊢; grind
    · simp [hist]
  cases op with
  | shutdown a e => exact hcause _ _
  | failInit a e reset => exact hfail _ _ _
  | initOk a => simp only [step]; split <;> first | exact hi | exact hi.congr rfl rfl rfl
  | start a => exact hi.congr rfl rfl rfl
  | factoryFails p =>
    simp only [step]
    split
    · split
      · exact hfail _ _ _
      · exact hcause _ _
    · exact hi
  | unlink a b => simp only [step]; split <;> first | exact hi | exact hdrop _ _
  | askChild p v =>
    simp only [step]
    split
    · rename_i h
      simp only [Bool.and_eq_true, decide_eq_true_eq] at h
      cases hw : s.why p with
      | none => exact hi
      | some e =>
        simp only [hist_requestShutdown]
        by_cases hv : v = p
        · exact inv_requestShutdown hi (.inr h.1) (.inl (hv ▸ hi.why p e hw))
        · exact inv_requestShutdown hi (.inr h.1) (.inr ⟨hv, hi.why p e hw⟩)
    · exact hi
  | removeChild p v esc =>
    simp only [step]
    split
    · rename_i h; exact inv_lostSpawned (inv_lostInInit hi) h
    · exact hi
  | deliver n =>
    simp only [step]
    cases hm : s.msgs[n]? with
    | none => exact hi
    | some m =>
      simp only
      have hg := hi.msgs m (List.mem_of_getElem? hm)
      have h0 : InvO c (hist s) { s with msgs := s.msgs.eraseIdx n } :=
        ⟨hi.reason, hi.why, fun m' h' => hi.msgs m' (List.mem_of_mem_eraseIdx h'), hi.head⟩
      have := inv_deliver (m := m) h0 hg
      have hh : hist (deliver c m { s with msgs := s.msgs.eraseIdx n }) = hist s := hist_deliver c m _
      rw [hh]
      exact this
  | lose n => exact ⟨hi.reason, hi.why, fun m' h' => hi.msgs m' (List.mem_of_mem_eraseIdx h'), hi.head⟩

/-- what the library made in place of what it knew -/
def Made (q : Nat × Err) : Prop :=
  q.2 = .leaf q.1 .childDown ∨ q.2 = .leaf q.1 .failureEscalation ∨ q.2 = .leaf q.1 .unlinkRequested

theorem drop_doShutdown (c : Cfg) (a : Nat) (e : Err) (s : State) : (doShutdown c a e s).dropped = s.dropped := by
  simp only [doShutdown]; split <;> rfl

theorem drop_shutdownStart (c : Cfg) (a : Nat) (e : Err) (s : State) : (shutdownStart c a e s).dropped = s.dropped := by
  simp only [shutdownStart]
  split
  · rfl
  · split
    · rfl
    · split <;> split <;> rfl

theorem drop_requestShutdown (c : Cfg) (p v : Nat) (e : Err) (s : State) : (requestShutdown c p v e s).dropped = s.dropped := by
  simp only [requestShutdown]
  split
  · rfl
  · split
    · split
      · exact drop_doShutdown c p e s
      · split
        · rfl
        · exact drop_shutdownStart c p e s
    · rfl

theorem drop_onInitFailed (c : Cfg) (a : Nat) (e : Err) (s : State) : (onInitFailed c a e s).dropped = s.dropped := by
  simp only [onInitFailed]
  split
  · split
    · split
      · exact drop_doShutdown ..
      · rfl
    · exact drop_doShutdown ..
  · exact drop_doShutdown ..

theorem drop_deliver (c : Cfg) (m : Msg) (s : State) : (deliver c m s).dropped = s.dropped := by
  cases m with
  | trigger p v e => exact drop_requestShutdown ..
  | request a e => exact drop_shutdownStart c a e s
  | initFailed a e => exact drop_onInitFailed ..

theorem made_step {c : Cfg} {s : State} (op : Op) (h : ∀ q ∈ s.dropped, Made q) : ∀ q ∈ (step c s op).dropped, Made q := by
  have cons : ∀ q0, Made q0 → ∀ q ∈ q0 :: s.dropped, Made q := by
    intro q0 h0 q hq
    simp only [List.mem_cons] at hq
    rcases hq with rfl | hq
    · exact h0
    · exact h q hq
  cases op with
  | shutdown a e => simpa only [step, drop_doShutdown] using h
  | failInit a e reset => exact h
  | initOk a => simp only [step]; split <;> exact h
  | start a => exact h
  | factoryFails p =>
    simp only [step]
    split
    · split
      · exact h
      · simpa only [drop_doShutdown] using h
    · exact h
  | unlink a b =>
    simp only [step]
    split
    · exact cons _ (.inr (.inr rfl))
    · exact h
  | askChild p v =>
    simp only [step]
    split
    · split
      · exact h
      · simpa only [drop_requestShutdown] using h
    · exact h
  | removeChild p v esc =>
    simp only [step]
    split
    · have h1 : (removeChild c p v esc s).dropped = (lostInInit c p v s).dropped := by
        simp only [removeChild, lostSpawned]
        split
        · rfl
        · split <;> rfl
      rw [h1]
      simp only [lostInInit]
      split
      · split
        · split
          · exact cons _ (.inr (.inl rfl))
          · exact h
        · simp only [drop_doShutdown]; exact cons _ (.inl rfl)
      · exact h
    · exact h
  | deliver n =>
    simp only [step]
    split
    · exact h
    · rw [drop_deliver]; exact h
  | lose n => exact h

theorem made_run {c : Cfg} (ops : List Op) : ∀ {s : State}, (∀ q ∈ s.dropped, Made q) → ∀ q ∈ (run c s ops).dropped, Made q := by
  induction ops with
  | nil => intro s h; exact h
  | cons op ops ih => intro s h; exact ih (made_step op h)

theorem inv_run {c : Cfg} (ops : List Op) : ∀ {s : State}, InvO c (hist s) s → InvO c (hist (run c s ops)) (run c s ops) := by
  induction ops with
  | nil => intro s h; exact h
  | cons op ops ih => intro s h; exact ih (inv_step op h)

theorem inv_init (c : Cfg) : InvO c (hist State.init) State.init := by
  constructor <;> simp [State.init]

theorem Trail.root {c : Cfg} {o : List (Nat × Err)} {x : Nat} {e : Err} (h : Trail c o x e) :
    ∃ b e', (b, e') ∈ o ∧ e.root = e'.root := by
  induction h with
  | cause hm => exact ⟨_, _, hm, rfl⟩
  | pass _ _ ih => exact ih

/-! ## Theorems -/

/-- The reason of every actor is a chain of errors that walks through the tree, from the neighbourhood of the actor, always
from one actor to the next, to the place where it began: to an error given by user code or made when an operation failed, or to
one of those the library made in place of what it knew (`dropped`) -/
theorem C64_trail (c : Cfg) (ops : List Op) (a : Nat) (r : Err) (h : (run c State.init ops).reason a = some r) :
    ∃ x, Trail c ((run c State.init ops).causes ++ (run c State.init ops).dropped) x r ∧ Close c a x :=
  (inv_run ops (inv_init c)).reason a r h

/-- ... so its root is the root of a cause, and the actor ended abnormally in the sense of the restart policies and of the
escalation exactly if the cause was an error; as long as nothing is `dropped` -/
theorem C64_root_partial (c : Cfg) (ops : List Op) (hd : (run c State.init ops).dropped = []) (a : Nat) (r : Err)
    (h : (run c State.init ops).reason a = some r) :
    ∃ b e, (b, e) ∈ (run c State.init ops).causes ∧ r.root = e.root ∧ r.root.code.bad = e.root.code.bad := by
  obtain ⟨x, h1, _⟩ := C64_trail c ops a r h
  rw [hd, List.append_nil] at h1
  obtain ⟨b, e, hm, he⟩ := h1.root
  exact ⟨b, e, hm, he, by rw [he]⟩

/-- ... and if there was one cause only, it is the root of all reasons in the tree -/
theorem C64_single_partial (c : Cfg) (ops : List Op) (hd : (run c State.init ops).dropped = []) (b : Nat) (e : Err)
    (h1 : (run c State.init ops).causes = [(b, e)]) (a : Nat) (r : Err) (h : (run c State.init ops).reason a = some r) :
    r.root = e.root := by
  obtain ⟨b', e', hm, he, _⟩ := C64_root_partial c ops hd a r h
  rw [h1] at hm
  simp only [List.mem_singleton, Prod.mk.injEq] at hm
  rw [he, hm.2]

/-- without restrictions: the root was made by user code, by a failed operation, or it is one of `child_down`,
`failure_escalation`, `unlink_requested` made by the library in place of what it knew -/
theorem C64_root (c : Cfg) (ops : List Op) (a : Nat) (r : Err) (h : (run c State.init ops).reason a = some r) :
    (∃ b e, (b, e) ∈ (run c State.init ops).causes ∧ r.root = e.root) ∨
    (∃ b, (b, r.root) ∈ (run c State.init ops).dropped ∧
      (r.root = .leaf b .childDown ∨ r.root = .leaf b .failureEscalation ∨ r.root = .leaf b .unlinkRequested)) := by
  obtain ⟨x, h1, _⟩ := C64_trail c ops a r h
  obtain ⟨b, e, hm, he⟩ := h1.root
  rw [List.mem_append] at hm
  rcases hm with hm | hm
  · exact .inl ⟨b, e, hm, he⟩
  · have : Made (b, e) := made_run ops (s := State.init) (by simp [State.init]) _ hm
    simp only [Made] at this
    have hl : e.root = e := by rcases this with h | h | h <;> rw [h] <;> rfl
    rw [he, hl]
    exact .inr ⟨b, hm, this⟩

/-- The reason of every actor below the root says first that its supervisor has shut it down -/
theorem C64_head (c : Cfg) (ops : List Op) (a p : Nat) (hp : c.par a = some p) (r : Err)
    (h : (run c State.init ops).reason a = some r) : ∃ e, r = .wrap p .supervisorShutdown e :=
  (inv_run ops (inv_init c)).head a r p h hp

theorem doShutdown_dropped (c : Cfg) (a : Nat) (e : Err) (s : State) :
    (doShutdown c a e s).dropped = s.dropped ∧ (doShutdown c a e s).started = s.started := by
  unfold doShutdown State.put
  repeat' split
  all_goals exact ⟨rfl, rfl⟩

theorem shutdownStart_dropped (c : Cfg) (a : Nat) (e : Err) (s : State) :
    (shutdownStart c a e s).dropped = s.dropped ∧ (shutdownStart c a e s).started = s.started := by
  unfold shutdownStart
  repeat' split
  all_goals first | exact ⟨rfl, rfl⟩ | (simp only [State.put]; split <;> exact ⟨rfl, rfl⟩)

theorem requestShutdown_dropped (c : Cfg) (p v : Nat) (e : Err) (s : State) :
    (requestShutdown c p v e s).dropped = s.dropped ∧ (requestShutdown c p v e s).started = s.started := by
  unfold requestShutdown
  repeat' split
  all_goals first | exact ⟨rfl, rfl⟩ | exact shutdownStart_dropped c p e s | exact doShutdown_dropped c p e s

theorem onInitFailed_dropped (c : Cfg) (a : Nat) (e : Err) (s : State) :
    (onInitFailed c a e s).dropped = s.dropped ∧ (onInitFailed c a e s).started = s.started := by
  unfold onInitFailed
  simp only
  repeat' split
  all_goals first | exact ⟨rfl, rfl⟩ | exact doShutdown_dropped ..

/-- nothing is dropped by a step that neither unlinks nor removes a child that has not been started -/
theorem step_dropped (c : Cfg) (s : State) (op : Op) (h1 : ∀ a b, op ≠ .unlink a b)
    (h2 : ∀ p v e, op = .removeChild p v e → s.started v = true) :
    (step c s op).dropped = s.dropped ∧ (∀ v, s.started v = true ∨ op = .start v → (step c s op).started v = true) := by
  cases op with
  | shutdown a e => have := doShutdown_dropped c a (e.getD (.leaf a .normal)) s; simp only [step]; simp [this]
  | failInit a e reset => simp [step]
  | initOk a => simp only [step]; split <;> simp
  | start a =>
    simp only [step, true_and]
    rintro v (h | h)
    · simp only [upd]; split <;> simp [h]
    · cases h; simp [upd]
  | factoryFails p =>
    simp only [step]
    split
    · split
      · simp
      · have := doShutdown_dropped c p (.leaf p .childInitFailed) s; simp [this]
    · simp
  | unlink a b => exact absurd rfl (h1 a b)
  | askChild p v =>
    simp only [step]
    split
    · split
      · simp
      · rename_i e _; have := requestShutdown_dropped c p v e s; simp [this]
    · simp
  | removeChild p v esc =>
    simp only [step]
    split
    · have hv := h2 p v esc rfl
      have hl : lostInInit c p v s = s := by simp [lostInInit, hv]
      simp only [removeChild, hl, lostSpawned]
      split
      · simp
      · split <;> simp [State.put]
    · simp
  | deliver n =>
    simp only [step]
    split
    · simp
    · rename_i m _
      cases m with
      | trigger p v e => have := requestShutdown_dropped c p v e { s with msgs := s.msgs.eraseIdx n }; simp [deliver, this]
      | request a e => have := shutdownStart_dropped c a e { s with msgs := s.msgs.eraseIdx n }; simp [deliver, this]
      | initFailed a e => have := onInitFailed_dropped c a e { s with msgs := s.msgs.eraseIdx n }; simp [deliver, this]
  | lose n => simp [step]

theorem run_dropped (c : Cfg) : ∀ (ops : List Op) (s : State), s.dropped = [] →
    (∀ pre op post, ops = pre ++ op :: post → (∀ a b, op ≠ .unlink a b) ∧
      (∀ p v e, op = .removeChild p v e → s.started v = true ∨ .start v ∈ pre)) → (run c s ops).dropped = [] := by
  intro ops
  induction ops with
  | nil => intro s h _; exact h
  | cons op ops ih =>
    intro s h hc
    have h0 := hc [] op ops rfl
    have hs := step_dropped c s op h0.1 (fun p v e he => (h0.2 p v e he).resolve_right (by simp))
    refine ih _ (hs.1.trans h) (fun pre op' post he => ?_)
    have h1 := hc (op :: pre) op' post (by rw [he]; rfl)
    refine ⟨h1.1, fun p v e hr => ?_⟩
    rcases h1.2 p v e hr with h | h
    · exact .inl (hs.2 v (.inl h))
    · rcases List.mem_cons.1 h with h | h
      · exact .inl (hs.2 v (.inr h.symm))
      · exact .inr h

/-- **C64, in terms of what happens.** If no server ends before its clients and only children that have been started are removed (others would be
lost during the initialization of their supervisor), every reason leads to its cause. -/
theorem C64_started_partial (c : Cfg) (ops : List Op)
    (hc : ∀ pre op post, ops = pre ++ op :: post → (∀ a b, op ≠ .unlink a b) ∧ (∀ p v e, op = .removeChild p v e → .start v ∈ pre))
    (a : Nat) (r : Err) (h : (run c State.init ops).reason a = some r) :
    ∃ b e, (b, e) ∈ (run c State.init ops).causes ∧ r.root = e.root ∧ r.root.code.bad = e.root.code.bad :=
  C64_root_partial c ops (run_dropped c ops State.init rfl (fun pre op post he => ⟨(hc pre op post he).1, fun p v e hr => .inr ((hc pre op post he).2 p v e hr)⟩)) a r h

/-! ### Concrete cases -/

/-- a root 0 with the supervisor 1, which has the actors 2 and 3; actor 2 escalates failures -/
def tree : Cfg where
  par a := if a = 0 then none else if a = 1 then some 0 else some 1
  policySelf := fun _ => true
  escalate a := a == 2
  auto := fun _ => false
  spawned := fun _ => false

/-- actor 2 fails while everything is running; the whole branch comes down -/
def failing : List Op :=
  [.initOk 2, .initOk 3, .initOk 1, .initOk 0, .shutdown 2 (some (.leaf 2 (.user 7))), .deliver 0, .deliver 0, .deliver 0, .deliver 0,
   .deliver 0, .askChild 1 2, .askChild 1 3, .deliver 0]

example : (run tree State.init failing).dropped = [] ∧ (run tree State.init failing).causes = [(2, .leaf 2 (.user 7))] ∧
    (run tree State.init failing).reason 2 = some (.wrap 1 .supervisorShutdown (.leaf 2 (.user 7))) ∧
    (run tree State.init failing).reason 1 =
      some (.wrap 0 .supervisorShutdown (.wrap 2 .failureEscalation (.wrap 1 .supervisorShutdown (.leaf 2 (.user 7))))) ∧
    (run tree State.init failing).reason 3 = some (.wrap 1 .supervisorShutdown (.wrap 0 .supervisorShutdown
      (.wrap 2 .failureEscalation (.wrap 1 .supervisorShutdown (.leaf 2 (.user 7)))))) := ⟨rfl, rfl, rfl, rfl, rfl⟩

/-- the server 3 of the client 2 fails; the reason of the client does not know about it -/
theorem C64_unlink_counterexample :
    let s := run tree State.init [.initOk 2, .initOk 3, .shutdown 3 (some (.leaf 3 (.user 7))), .deliver 0, .deliver 0, .unlink 2 3,
      .deliver 0, .deliver 0]
    s.causes = [(3, .leaf 3 (.user 7))] ∧ s.reason 3 = some (.wrap 1 .supervisorShutdown (.leaf 3 (.user 7))) ∧
      s.reason 2 = some (.wrap 1 .supervisorShutdown (.leaf 2 .unlinkRequested)) := ⟨rfl, rfl, rfl⟩

/-- an actor fails while its supervisor is initializing, the supervisor is to end with it: its own init request is answered
without the reason, and so the supervisor's supervisor does not know it either -/
theorem C64_lost_self_counterexample :
    let s := run tree State.init [.shutdown 3 (some (.leaf 3 (.user 7))), .deliver 0, .deliver 0, .removeChild 1 3 false, .deliver 0]
    s.causes = [(3, .leaf 3 (.user 7))] ∧
      s.msgs = [.initFailed 0 (.wrap 0 .failureEscalation (.leaf 1 .failureEscalation))] := ⟨rfl, rfl⟩

/-- with the policy `shutdown_failed` a child that ends normally during the initialization ends its supervisor abnormally -/
theorem C64_lost_failed_counterexample :
    let c : Cfg := { tree with policySelf := fun _ => false }
    let s := run c State.init [.shutdown 2 none, .deliver 0, .deliver 0, .removeChild 1 2 false, .deliver 0, .deliver 0]
    s.causes = [(2, .leaf 2 .normal)] ∧ ∃ r, s.reason 1 = some r ∧ r.root = .leaf 1 .childDown ∧ r.root.code.bad = true :=
  ⟨rfl, _, rfl, rfl, rfl⟩

/-- the supervisor 1 is still initializing when its child 3, which has been started, fails and is removed: nothing happens to the supervisor -/
example : (run tree State.init [.initOk 3, .start 3, .shutdown 3 (some (.leaf 3 (.user 7))), .deliver 0, .deliver 0, .removeChild 1 3 false]).dropped = [] ∧
    (run tree State.init [.initOk 3, .start 3, .shutdown 3 (some (.leaf 3 (.user 7))), .deliver 0, .deliver 0, .removeChild 1 3 false]).msgs = [] ∧
    (run tree State.init [.initOk 3, .start 3, .shutdown 3 (some (.leaf 3 (.user 7))), .deliver 0, .deliver 0, .removeChild 1 3 false]).st 1 = .initializing :=
  ⟨rfl, rfl, rfl⟩

end Verif.Reasons
