import Verif.ShutTimeout.Safe

/-! # Property C67: children that do not confirm their shutdown -/

namespace Verif.ShutTimeout

/-- **C67, unresponsive children are reported once and then given up.** For every execution: the record of a child is removed at most once, and only
if the child has finished its shutdown or was reported with `on_error`; no child is reported twice; a child is reported only if the timer of its
shutdown request fired, and if it fired the child is reported as soon as the supervisor has handled its messages; a child is asked at most once. -/
theorem C67_reported_once {lenient : Bool} {os : List Op} {σ : State} (h : run lenient .init os = .ok σ) :
    σ.removed.Nodup ∧ (∀ a ∈ σ.removed, σ.kst a = .stopped ∨ a ∈ σ.errors) ∧ (∀ a ∈ σ.removed, ∀ r ∈ σ.recs, r.kid ≠ a) ∧
      σ.errors.Nodup ∧ (∀ a ∈ σ.errors, a ∈ σ.fired) ∧ (σ.q = [] → ∀ a ∈ σ.fired, a ∈ σ.errors) ∧ σ.fired.Nodup ∧
      (σ.reqs.map (·.2)).Nodup := by
  have hi := inv_run inv_init h
  refine ⟨hi.removedNodup, hi.gone, ?_, hi.errorsNodup, fun a ha => (hi.fired a).2 (.inl ha), ?_, hi.firedNodup, ?_⟩
  · intro a ha r hr
    have := ((hi.removed a).1 ha).2
    simp only [shutOf, Option.map_eq_none_iff] at this
    exact find_none_mem this r hr
  · intro hq a ha
    rcases (hi.fired a).1 ha with h | h
    · exact h
    · rw [hq] at h; cases h
  · rw [List.nodup_iff_count]
    intro a
    have := hi.waiting a
    split at this <;> omega

theorem confirm_strict {σ τ : State} {a : Nat} {err : Bool} (h : confirm false σ a err = .ok τ) : τ.errors = σ.errors := by
  unfold confirm at h
  split at h
  · cases h
  · cases err with
    | true => simp at h
    | false =>
      simp only [Bool.false_and, Bool.false_eq_true, if_false] at h
      split at h
      · cases h; rfl
      · unfold remove at h
        split at h
        · cases h
        · split at h <;> cases h <;> rfl

theorem ask_errors (σ : State) (r : Rec) : (ask σ r).errors = σ.errors := by
  unfold ask; split <;> rfl

theorem step_strict {σ τ : State} {o : Op} (h : step false σ o = .ok τ) : τ.errors = σ.errors := by
  have hfold : ∀ (l : List Rec) (σ : State), (l.foldl ask σ).errors = σ.errors := by
    intro l
    induction l with
    | nil => intro σ; rfl
    | cons r l ih => intro σ; rw [List.foldl_cons, ih, ask_errors]
  cases o with
  | process =>
    simp only [step] at h
    split at h
    · cases h; rfl
    · rename_i m q hq
      split at h
      · cases h; rfl
      · cases m with
        | kid a o =>
          cases o with
          | trigger =>
            simp only [handle] at h
            split at h
            · cases h
            · cases h; rw [ask_errors]
          | reply id =>
            simp only [handle] at h
            split at h
            · have e := confirm_strict h; exact e
            · cases h; rfl
        | timeout a => simp only [handle] at h; have e := confirm_strict h; exact e
        | unsub a =>
          simp only [handle, remove] at h
          split at h
          · cases h
          · split at h <;> cases h <;> rfl
        | trigSelf =>
          simp only [handle] at h
          split at h
          · cases h; rw [hfold]
          · cases h; rfl
  | create fac => simp only [step] at h; split at h <;> cases h <;> rfl
  | kidShutdown a => simp only [step] at h; split at h <;> cases h <;> rfl
  | supShutdown => simp only [step] at h; cases h; rfl
  | request a =>
    simp only [step] at h
    split at h
    · split at h <;> cases h <;> rfl
    · split at h <;> cases h <;> rfl
    · cases h; rfl
  | asked a => simp only [step] at h; split at h <;> cases h <;> rfl
  | kidFinish a => simp only [step] at h; split at h <;> cases h <;> rfl
  | arrive a => simp only [step] at h; split at h <;> cases h <;> rfl
  | timer id => simp only [step] at h; split at h <;> cases h <;> rfl
  | finish =>
    simp only [step] at h
    split at h
    · split at h <;> cases h <;> rfl
    · cases h; rfl

/-- **C67, the default.** With the `on_error` of the library the program goes on only as long as no child is given up: every child whose record is
removed has finished its own shutdown, and so has every child when the supervisor has. -/
theorem C67_default_confirmed {os : List Op} {σ : State} (h : run false .init os = .ok σ) :
    (∀ a ∈ σ.removed, σ.kst a = .stopped) ∧ (σ.sup = .stopped → ∀ a, σ.kst a = .unborn ∨ σ.kst a = .stopped) := by
  have hi := inv_run inv_init h
  have he : σ.errors = [] := by
    have : ∀ (os : List Op) (σ τ : State), run false σ os = .ok τ → τ.errors = σ.errors := by
      intro os
      induction os with
      | nil => intro σ τ h; cases h; rfl
      | cons o os ih =>
        intro σ τ h
        simp only [run] at h
        split at h
        · cases h
        · rename_i σ' hs
          rw [ih σ' τ h, step_strict hs]
    exact this os _ _ h
  have h1 : ∀ a ∈ σ.removed, σ.kst a = .stopped := by
    intro a ha
    rcases hi.gone a ha with h | h
    · exact h
    · rw [he] at h; cases h
  refine ⟨h1, fun hs a => ?_⟩
  by_cases ha : a < σ.nextKid
  · right
    apply h1
    rw [hi.removed]
    exact ⟨ha, by simp [shutOf, hi.over hs, find]⟩
  · exact .inl (hi.unborn a (by omega)).1

/-- **C67, a program that goes on after `on_error` does not fail (partial).** Missing: children that are in another locality and have not got the
request when its timer fires, and children that make requests after they were given up, see the counterexamples below. -/
theorem C67_no_fault_partial {os : List Op} (hp : Polite true .init os) : ∃ σ, run true .init os = .ok σ := by
  obtain ⟨σ, h, -, -⟩ := run_ok inv_init safe_init hp
  exact ⟨σ, h⟩

/-- weight of the messages that the supervisor has to handle -/
def weight : QM → Nat
  | .unsub _ => 1
  | _ => 2

def weights (q : List QM) : Nat := (q.map weight).sum

theorem weights_append (a b : List QM) : weights (a ++ b) = weights a + weights b := by simp [weights]

/-- while the supervisor shuts down, every message brings it nearer to the end -/
theorem process_less {σ τ : State} (s : Safe σ) (hs : σ.sup = .stopping) (hr : σ.reqs = []) (hq : σ.q ≠ [])
    (h : step true σ .process = .ok τ) : weights τ.q < weights σ.q ∧ τ.sup = .stopping ∧ τ.reqs = [] := by
  simp only [step] at h
  split at h
  · rename_i hq'; exact absurd hq' hq
  · rename_i m q hq'
    rw [if_neg (by rw [hs]; simp)] at h
    have hw : weights σ.q = weight m + weights q := by rw [hq']; simp [weights]
    have conf : ∀ (a : Nat) (σ' : State), σ'.sup = .stopping → σ'.reqs = [] → σ'.q = q → ∀ err, weight m = 2 → confirm true σ' a err = .ok τ →
        weights τ.q < weights σ.q ∧ τ.sup = .stopping ∧ τ.reqs = [] := by
      intro a σ' h1 h2 h3 err h4 hc
      unfold confirm at hc
      split at hc
      · cases hc
      · rw [if_neg (by simp)] at hc
        by_cases hmp : a ∈ σ'.maps
        · rw [if_pos hmp] at hc
          cases hc
          refine ⟨?_, h1, h2⟩
          have h5 : weights [QM.unsub a] = 1 := rfl
          simp only [h3, weights_append, hw, h4]
          omega
        · rw [if_neg hmp] at hc
          unfold remove at hc
          split at hc
          · cases hc
          · rw [if_neg (by simp [h1])] at hc
            cases hc
            refine ⟨?_, h1, h2⟩
            simp only [h3, hw, h4]; omega
    cases m with
    | kid a o =>
      cases o with
      | trigger =>
        simp only [handle] at h
        split at h
        · cases h
        · rename_i r hf
          have hn : r.shut ≠ .none := by
            intro hc
            exact s.asked (by rw [hs]; simp) a (by simp [shutOf, show find σ.recs a = some r from hf, hc])
          cases h
          unfold ask
          rw [if_neg hn]
          exact ⟨by rw [hw]; simp [weight], hs, hr⟩
      | reply id =>
        simp only [handle] at h
        split at h
        · rename_i hm; rw [show ({ σ with q := q } : State).reqs = σ.reqs from rfl, hr] at hm; cases hm
        · cases h
          exact ⟨by rw [hw]; simp [weight], hs, hr⟩
    | timeout a =>
      simp only [handle] at h
      exact conf a { σ with q := q } hs hr rfl true rfl h
    | unsub a =>
      simp only [handle, remove] at h
      split at h
      · cases h
      · rw [if_neg (by simp [hs])] at h
        cases h
        exact ⟨by rw [hw]; simp [weight], hs, hr⟩
    | trigSelf =>
      simp only [handle] at h
      rw [if_neg (by simp [hs])] at h
      cases h
      exact ⟨by rw [hw]; simp [weight], hs, hr⟩

theorem run_append {l : Bool} {σ σ' : State} {a b : List Op} (h : run l σ a = .ok σ') : run l σ (a ++ b) = run l σ' b := by
  induction a generalizing σ with
  | nil => cases h; rfl
  | cons o a ih =>
    cases hs : step l σ o with
    | error f => simp [run, hs] at h
    | ok σ₁ =>
      simp only [run, hs] at h
      simp only [List.cons_append, run, hs]
      exact ih h

/-- the supervisor handles all its messages -/
theorem drain : ∀ (n : Nat) {σ : State}, weights σ.q ≤ n → Inv σ → Safe σ → σ.sup = .stopping → σ.reqs = [] →
    ∃ τ k, run true σ (List.replicate k .process) = .ok τ ∧ Inv τ ∧ Safe τ ∧ τ.sup = .stopping ∧ τ.reqs = [] ∧ τ.q = [] := by
  intro n
  induction n with
  | zero =>
    intro σ hn hi s hs hr
    refine ⟨σ, 0, rfl, hi, s, hs, hr, ?_⟩
    cases hq : σ.q with
    | nil => rfl
    | cons m q =>
      rw [hq] at hn
      simp only [weights, List.map_cons, List.sum_cons] at hn
      have : 0 < weight m := by cases m <;> simp [weight]
      omega
  | succ n ih =>
    intro σ hn hi s hs hr
    by_cases hq : σ.q = []
    · exact ⟨σ, 0, rfl, hi, s, hs, hr, hq⟩
    · obtain ⟨σ₁, h1, s1⟩ := step_ok (o := .process) hi s trivial
      obtain ⟨h2, h3, h4⟩ := process_less s hs hr hq h1
      obtain ⟨τ, k, h5, h6⟩ := ih (by omega) (inv_step hi h1) s1 h3 h4
      refine ⟨τ, k + 1, ?_, h6⟩
      simp only [List.replicate_succ, run, h1]
      exact h5

/-- all timers fire -/
theorem expire : ∀ (n : Nat) {σ : State}, σ.reqs.length = n → Inv σ → Safe σ → σ.sup = .stopping →
    (∀ p ∈ σ.reqs, σ.kst p.2 ≠ .operational ∧ .trigger ∉ σ.out p.2) →
    ∃ (τ : State) (ids : List Nat), run true σ (ids.map .timer) = .ok τ ∧ Inv τ ∧ Safe τ ∧ τ.sup = .stopping ∧ τ.reqs = [] := by
  intro n
  induction n with
  | zero =>
    intro σ hn hi s hs _
    exact ⟨σ, [], rfl, hi, s, hs, List.length_eq_zero_iff.1 hn⟩
  | succ n ih =>
    intro σ hn hi s hs hk
    cases hr : σ.reqs with
    | nil => rw [hr] at hn; cases hn
    | cons p ps =>
      have hpm : p ∈ σ.reqs := hr ▸ List.mem_cons_self
      have hpol : polite σ (.timer p.1) := fun a ha => hk _ ha
      obtain ⟨σ₁, h1, s1⟩ := step_ok hi s hpol
      have hf : σ.reqs.find? (fun x => x.1 == p.1) = some p := by rw [hr]; simp
      have h1' := h1
      simp only [step, hf] at h1'
      cases h1'
      have hfil : σ.reqs.filter (fun x => decide (x ≠ p)) = ps := by
        have hnd := hi.idsNodup
        rw [hr] at hnd ⊢
        simp only [List.map_cons, List.nodup_cons] at hnd
        rw [List.filter_cons, if_neg (by simp), List.filter_eq_self]
        intro y hy
        simp only [decide_eq_true_eq]
        rintro rfl
        exact hnd.1 (List.mem_map_of_mem hy)
      have hlen : (σ.reqs.filter (fun x => decide (x ≠ p))).length = n := by
        rw [hfil]; rw [hr] at hn; simpa using hn
      obtain ⟨τ, ids, h5, h6⟩ := ih hlen (inv_step hi h1) s1 hs (fun x hx => hk x (List.mem_filter.1 hx).1)
      refine ⟨τ, p.1 :: ids, ?_, h6⟩
      simp only [List.map_cons, run, h1]
      exact h5

/-- **C67, nobody can block the shutdown of the supervisor.** Once the supervisor shuts down and the children have been asked, it finishes without
any help of theirs: when the timers of the open requests have fired and the messages are handled. -/
theorem C67_shutdown_ends_partial {os : List Op} (hp : Polite true .init os) {σ : State} (h : run true .init os = .ok σ) (hs : σ.sup = .stopping)
    (hk : ∀ p ∈ σ.reqs, σ.kst p.2 ≠ .operational ∧ .trigger ∉ σ.out p.2) :
    ∃ (ids : List Nat) (k : Nat) (τ : State), run true σ (ids.map .timer ++ List.replicate k .process ++ [.finish]) = .ok τ ∧ τ.sup = .stopped := by
  obtain ⟨σ', h', hi, s⟩ := run_ok inv_init safe_init hp
  rw [h] at h'
  cases h'
  obtain ⟨σ₁, ids, h1, i1, s1, u1, r1⟩ := expire _ rfl hi s hs hk
  obtain ⟨σ₂, k, h2, i2, s2, u2, r2, q2⟩ := drain _ (Nat.le_refl _) i1 s1 u1 r1
  have hrec : σ₂.recs = [] := by
    rw [List.eq_nil_iff_forall_not_mem]
    intro r hr
    have hf := find_of_mem i2.nodup hr
    have hsh : shutOf σ₂ r.kid = some r.shut := by simp [shutOf, hf]
    have hw := i2.waiting r.kid
    have hu := i2.unsubs r.kid
    have ha := s2.asked (by rw [u2]; simp) r.kid
    rw [hsh] at hw hu ha
    rw [q2, r2] at hw
    rw [q2] at hu
    cases hsr : r.shut with
    | none => rw [hsr] at ha; exact ha rfl
    | sent => rw [hsr] at hw; simp at hw
    | confirmed => rw [hsr] at hu; simp at hu
  obtain ⟨τ, h3, -⟩ := step_ok (o := .finish) i2 s2 trivial
  have h3' := h3
  simp only [step] at h3'
  rw [if_pos ⟨u2, hrec⟩] at h3'
  refine ⟨ids, k, τ, ?_, ?_⟩
  · rw [List.append_assoc, run_append h1, run_append h2]
    simp only [run, h3]
  · split at h3'
    · cases h3'; rfl
    · cases h3'

/-- the outcome of an execution in a comparable form -/
def faulty (lenient : Bool) (os : List Op) (f : Fault) : Bool :=
  match run lenient .init os with
  | .error g => decide (g = f)
  | .ok _ => false

def fine (lenient : Bool) (os : List Op) (p : State → Bool) : Bool :=
  match run lenient .init os with
  | .error _ => false
  | .ok σ => p σ

/-- **C67, a child that has not got its request.** The child lives in another locality, which is busy; its shutdown is requested, the request times
out and the child is given up. Later it shuts down by itself: the trigger refers to a record that does not exist any more, `actors_map.at` throws in
a `noexcept` method and the program ends. -/
theorem C67_deaf_child_counterexample :
    faulty true [.create false, .kidShutdown 0, .arrive 0, .process, .timer 0, .process, .kidShutdown 0, .arrive 0, .process] .outOfRange = true := by
  decide

/-- **C67, a child that makes requests after it was given up.** The supervisor subscribes on behalf of the child; when it shuts down itself it wants
to remove the child again. -/
theorem C67_late_request_counterexample :
    faulty true [.create false, .kidShutdown 0, .arrive 0, .process, .asked 0, .timer 0, .process, .request 0, .supShutdown, .process, .finish] .noChild = true := by decide

/-- **C67, two instances of a spawner.** The instance that does not stop is given up and the next one is made: then both run. -/
theorem C67_two_instances_counterexample :
    fine true [.create true, .kidShutdown 0, .arrive 0, .process, .asked 0, .timer 0, .process]
      (fun σ => decide (σ.kst 0 = .stopping 0 ∧ σ.kst 1 = .operational ∧ σ.recs = [⟨1, true, .none⟩] ∧ σ.errors = [0])) = true := by decide

/-- with the default `on_error` the program ends -/
theorem C67_default_fatal_counterexample :
    faulty false [.create false, .supShutdown, .process, .asked 0, .timer 0, .process] .fatal = true := by decide

/-- tests/023 "failed to shutdown actor (3)": a child holds a resource; a second one stops in time; the late answer of the first one is ignored -/
def exOps : List Op :=
  [.create false, .create false, .request 0, .supShutdown, .process, .asked 0, .asked 1, .kidFinish 1, .arrive 1, .process, .timer 0, .process, .process]

example : fine true exOps (fun σ => decide (σ.errors = [0] ∧ σ.removed = [0, 1] ∧ σ.kst 0 = .stopping 0 ∧ σ.recs = [] ∧ σ.sup = .stopping)) = true := by
  decide

example : fine true (exOps ++ [.kidFinish 0, .arrive 0, .process, .finish]) (fun σ => decide (σ.errors = [0] ∧ σ.sup = .stopped ∧ σ.kst 0 = .stopped)) = true := by
  decide

/-- the restriction in a form that can be computed -/
def politeB (σ : State) : Op → Bool
  | .timer id => σ.reqs.all (fun p => decide (p.1 = id → σ.kst p.2 ≠ .operational ∧ .trigger ∉ σ.out p.2))
  | .request a => σ.recs.any (fun r => decide (r.kid = a))
  | _ => true

theorem polite_of {σ : State} {o : Op} (h : politeB σ o = true) : polite σ o := by
  cases o <;> simp only [polite]
  · simpa [politeB] using h
  · intro a ha
    simp only [politeB, List.all_eq_true, decide_eq_true_eq] at h
    exact h _ ha rfl

def PoliteB (lenient : Bool) (σ : State) : List Op → Bool
  | [] => true
  | o :: os => politeB σ o && (match step lenient σ o with | .ok τ => PoliteB lenient τ os | .error _ => true)

theorem Polite_of {lenient : Bool} {σ : State} {os : List Op} (h : PoliteB lenient σ os = true) : Polite lenient σ os := by
  induction os generalizing σ with
  | nil => trivial
  | cons o os ih =>
    simp only [PoliteB, Bool.and_eq_true] at h
    refine ⟨polite_of h.1, fun τ hs => ih ?_⟩
    have := h.2
    rw [hs] at this
    exact this

/-- the executions above meet the restriction -/
example : Polite true .init (exOps ++ [.kidFinish 0, .arrive 0, .process, .finish]) := Polite_of (by decide)

/-- an execution where the second theorem applies: one child has been asked and does not answer -/
example : fine true [.create false, .request 0, .supShutdown, .process, .asked 0] (fun σ => decide (σ.sup = .stopping ∧ σ.reqs = [(0, 0)] ∧
    σ.kst 0 = .stopping 0 ∧ σ.out 0 = [])) = true ∧ Polite true .init [.create false, .request 0, .supShutdown, .process, .asked 0] :=
  ⟨by decide, Polite_of (by decide)⟩

end Verif.ShutTimeout
