import Verif.Spawner.Spec

/-!
# Properties C25-C28: spawners
-/

namespace Verif.Spawner

theorem calls_append (a b : List Out) : calls (a ++ b) = calls a ++ calls b := by simp [calls]

/-- invariant of all reachable states -/
structure Inv (c : Cfg) (s : State) : Prop where
  attempts : s.info.attempts = (calls s.out).length
  limit : c.maxAttempts ≠ 0 → s.info.attempts ≤ c.maxAttempts
  left : s.info.active = true → c.maxAttempts = 0 ∨ s.info.attempts < c.maxAttempts
  neverP : s.info.active = true → c.policy = .never → s.info.attempts = 0
  one : s.pending + s.inst.toNat + s.info.timer.toNat ≤ 1
  gone : s.present = false → s.pending = 0 ∧ s.inst = false ∧ s.info.timer = false

theorem inv_start (c : Cfg) : Inv c State.start := by
  constructor <;> simp [State.start, calls]
  omega

theorem checkEscalation_eq (c : Cfg) (i : Info) (ab : Bool) :
    (checkEscalation c i ab).1.attempts = i.attempts ∧ (checkEscalation c i ab).1.timer = i.timer ∧
    (checkEscalation c i ab).1.last = i.last ∧
    ((checkEscalation c i ab).1.active = true → i.active = true) ∧
    ((checkEscalation c i ab).2 = false → (checkEscalation c i ab).1 = i) := by
  unfold checkEscalation
  (repeat' split) <;> simp_all

theorem nextSpawn_frame (c : Cfg) (i : Info) (ab an : Bool) (w : Int) :
    (nextSpawn c i ab an w).1.attempts = i.attempts ∧ (nextSpawn c i ab an w).1.timer = i.timer ∧
    (nextSpawn c i ab an w).1.last = i.last ∧
    ((nextSpawn c i ab an w).1.active = true → i.active = true) := by
  have h := checkEscalation_eq c i ab
  unfold nextSpawn
  split
  · simp
  · generalize checkEscalation c i ab = p at h
    obtain ⟨i1, e⟩ := p
    simp only at h ⊢
    (repeat' split) <;> simp_all

theorem inv_step (c : Cfg) (s s' : State) (e : Ev) (hi : Inv c s) (h : step c s e = some s') : Inv c s' := by
  cases e with
  | spawn t w st sp ok =>
    simp only [step] at h
    split at h
    · rename_i hp
      simp only [Option.some.injEq] at h
      have hone := hi.one
      have hpend : s.pending = 1 := by omega
      have hinst : s.inst = false := by
        cases hh : s.inst <;> simp_all
        omega
      have htim : s.info.timer = false := by cases hh : s.info.timer <;> simp_all
      subst h
      unfold onSpawn
      simp only
      split
      · refine ⟨hi.attempts, hi.limit, hi.left, hi.neverP, by simp [hinst, htim, hpend], ?_⟩
        intro hpr; simp only at hpr; rw [hpr] at hp; simp at hp
      · rename_i hact
        simp only [Bool.not_eq_false] at hact
        have hcalls := hi.attempts
        have hleft := hi.left hact
        cases ok with
        | true =>
          simp only [if_true, spawnAttempt]
          constructor <;> simp only
          · rw [calls_append, List.length_append, ← hcalls]; rfl
          · intro hm; rcases hleft with h | h
            · exact absurd h hm
            · omega
          · intro ha
            split at ha
            · simp at ha
            · split at ha
              · simp at ha
              · omega
          · intro ha hn
            rw [if_pos hn] at ha; simp at ha
          · simp [hpend]
          · intro hpr; rw [hpr] at hp; simp at hp
        | false =>
          simp only [Bool.false_eq_true, if_false, spawnAttempt]
          have hcall : ∀ (l : List Out), (l = [] ∨ l = [Out.supInitFailed]) →
              (calls (s.out ++ [.factory t false] ++ l)).length = s.info.attempts + 1 := by
            intro l hl
            rw [calls_append, calls_append, List.length_append, List.length_append, ← hcalls]
            rcases hl with rfl | rfl <;> rfl
          have hl : ∀ (p : Prop) [Decidable p], (if p then [Out.supInitFailed] else []) = [] ∨
              (if p then [Out.supInitFailed] else []) = [Out.supInitFailed] := by
            intro p _; by_cases hp : p <;> simp [hp]
          split
          · constructor <;> simp only
            · exact (hcall _ (hl _)).symm
            · intro hm; rcases hleft with h | h
              · exact absurd h hm
              · omega
            · intro ha
              split at ha
              · simp at ha
              · split at ha
                · simp at ha
                · omega
            · intro ha hn
              rw [if_pos hn] at ha; simp at ha
            · simp [hpend, hinst]
            · intro hpr; rw [hpr] at hp; simp at hp
          · constructor <;> simp only
            · exact (hcall _ (hl _)).symm
            · intro hm; rcases hleft with h | h
              · exact absurd h hm
              · omega
            · simp
            · simp
            · simp [hpend, hinst]
            · intro hpr; rw [hpr] at hp; simp at hp
    · simp at h
  | down t w st ab an =>
    simp only [step] at h
    split at h
    · rename_i hin
      simp only [Option.some.injEq] at h
      have hone := hi.one
      have hpend : s.pending = 0 := by rw [hin] at hone; simp at hone; omega
      have htim : s.info.timer = false := by cases hh : s.info.timer <;> simp_all
      subst h
      unfold onDown
      split
      · obtain ⟨f1, f2, f3, f4⟩ := nextSpawn_frame c s.info ab an w
        generalize nextSpawn c s.info ab an w = r at f1 f2 f3 f4
        obtain ⟨i, d⟩ := r
        simp only at f1 f2 f3 f4 ⊢
        cases d with
        | now =>
          exact ⟨by simp only; rw [f1, hi.attempts], by simp only; rw [f1]; exact hi.limit,
            by simp only; intro h; rw [f1]; exact hi.left (f4 h),
            by simp only; intro h hp; rw [f1]; exact hi.neverP (f4 h) hp, by simp [f2, htim, hpend],
            by intro hpr; simp only at hpr; have := hi.gone hpr; simp [this.2.1] at hin⟩
        | escalate =>
          exact ⟨by simp only; rw [f1, hi.attempts, calls_append]; simp [calls], by simp only; rw [f1]; exact hi.limit,
            by simp only; intro h; rw [f1]; exact hi.left (f4 h),
            by simp only; intro h hp; rw [f1]; exact hi.neverP (f4 h) hp, by simp [f2, htim, hpend],
            by simp [hpend, f2, htim]⟩
        | after a =>
          exact ⟨by simp only; rw [f1, hi.attempts], by simp only; rw [f1]; exact hi.limit,
            by simp only; intro h; rw [f1]; exact hi.left (f4 h),
            by simp only; intro h hp; rw [f1]; exact hi.neverP (f4 h) hp, by simp [hpend],
            by intro hpr; simp only at hpr; have := hi.gone hpr; simp [this.2.1] at hin⟩
        | no =>
          exact ⟨by simp only; rw [f1, hi.attempts], by simp only; rw [f1]; exact hi.limit,
            by simp only; intro h; rw [f1]; exact hi.left (f4 h),
            by simp only; intro h hp; rw [f1]; exact hi.neverP (f4 h) hp, by simp [f2, htim, hpend],
            by simp [hpend, f2, htim]⟩
      · exact ⟨hi.attempts, hi.limit, hi.left, hi.neverP, by simp [hpend, htim], by simp [hpend, htim]⟩
    · simp at h
  | fired t w st =>
    simp only [step] at h
    split at h
    · rename_i hin
      simp only [Option.some.injEq] at h
      have hone := hi.one
      rw [hin.1] at hone
      have hpend : s.pending = 0 := by simp at hone; omega
      have hinst : s.inst = false := by cases hh : s.inst <;> simp_all
      subst h
      unfold onTimer
      simp only [Bool.false_eq_true, if_false]
      split
      · refine ⟨hi.attempts, hi.limit, hi.left, hi.neverP, by simp [hpend, hinst], ?_⟩
        intro hpr; have := hi.gone hpr; simp [this.2.2] at hin
      · exact ⟨hi.attempts, hi.limit, hi.left, hi.neverP, by simp [hpend, hinst], by simp [hpend, hinst]⟩
    · simp at h
  | cancelled t w st =>
    simp only [step] at h
    split at h
    · rename_i hin
      simp only [Option.some.injEq] at h
      have hone := hi.one
      rw [hin] at hone
      have hpend : s.pending = 0 := by simp at hone; omega
      have hinst : s.inst = false := by cases hh : s.inst <;> simp_all
      subst h
      unfold onTimer
      simp only [if_true]
      exact ⟨hi.attempts, hi.limit, by simp, by simp, by simp [hpend, hinst], by simp [hpend, hinst]⟩
    · simp at h

theorem inv_run (c : Cfg) (es : List Ev) (s s' : State) (hi : Inv c s) (h : run c s es = some s') : Inv c s' := by
  induction es generalizing s with
  | nil => simp only [run, Option.some.injEq] at h; subst h; exact hi
  | cons e es ih =>
    simp only [run] at h
    cases hs : step c s e with
    | none => simp [hs] at h
    | some s1 => rw [hs] at h; exact ih s1 (inv_step c s s1 e hi hs) h

/-- **C25.** With a limit of `n > 0` attempts the factory is called at most `n` times, whatever
happens; and there is never more than one instance, queued restart or armed restart timer. -/
theorem C25_max_attempts (c : Cfg) (es : List Ev) (s : State) (h : run c State.start es = some s) :
    (0 < c.maxAttempts → (calls s.out).length ≤ c.maxAttempts) ∧
    s.pending + s.inst.toNat + s.info.timer.toNat ≤ 1 := by
  have hi := inv_run c es _ _ (inv_start c) h
  refine ⟨fun hm => ?_, hi.one⟩
  rw [← hi.attempts]; exact hi.limit (by omega)

/-- events that do not disturb the spawner from outside: the supervisor stays up to `OPERATIONAL`,
and nobody cancels the timers -/
def Calm (es : List Ev) : Prop :=
  ∀ e ∈ es, e.sup.rank ≤ AState.operational.rank ∧ ∀ t w st, e ≠ .cancelled t w st

/-- more facts about states where an instance runs -/
structure Live (c : Cfg) (s : State) : Prop where
  inv : Inv c s
  instActive : s.inst = true → (s.info.active = true ↔ c.policy ≠ .never ∧ attemptsLeft c s.out)
  instPresent : s.inst = true → s.present = true

theorem live_run (c : Cfg) (es : List Ev) (s s' : State) (hi : Live c s) (h : run c s es = some s') : Live c s' := by
  induction es generalizing s with
  | nil => simp only [run, Option.some.injEq] at h; subst h; exact hi
  | cons e es ih =>
    simp only [run] at h
    cases hs : step c s e with
    | none => simp [hs] at h
    | some s1 =>
      rw [hs] at h
      refine ih s1 ?_ h
      have hi1 := inv_step c s s1 e hi.inv hs
      have hpres : s1.inst = true → s1.present = true := by
        intro hin
        cases hp : s1.present with
        | true => rfl
        | false => have := (hi1.gone hp).2.1; rw [hin] at this; simp at this
      refine ⟨hi1, ?_, hpres⟩
      intro hin
      cases e with
      | spawn t w st sp ok =>
        simp only [step] at hs
        split at hs
        · rename_i hp
          simp only [Option.some.injEq] at hs
          have hone := hi.inv.one
          have hinst : s.inst = false := by cases hh : s.inst <;> simp_all; omega
          subst hs
          unfold onSpawn at hin ⊢
          simp only at hin ⊢
          split at hin
          · rw [hinst] at hin; simp at hin
          · rename_i hact
            simp only [Bool.not_eq_false] at hact
            rw [if_neg (by simp [hact])]
            cases ok with
            | false =>
              simp only [Bool.false_eq_true, if_false] at hin
              split at hin <;> (simp only at hin; rw [hinst] at hin; simp at hin)
            | true =>
              simp only [if_true, spawnAttempt, hact, attemptsLeft, calls_append, List.length_append]
              have hat := hi.inv.attempts
              have : (calls [Out.factory t true]).length = 1 := rfl
              rw [this, ← hat]
              by_cases hn : c.policy = .never
              · simp [hn]
              · simp only [hn, if_false, ne_eq, not_false_eq_true, true_and]
                by_cases hm : c.maxAttempts = 0
                · simp [hm]
                · by_cases hge : s.info.attempts + 1 ≥ c.maxAttempts
                  · simp only [hm, not_false_eq_true, hge, and_self, if_true, false_or, Bool.false_eq_true, false_iff]
                    omega
                  · simp only [hm, not_false_eq_true, hge, and_false, if_false, false_or, true_iff]
                    omega
        · simp at hs
      | down t w st ab an =>
        simp only [step] at hs
        split at hs
        · simp only [Option.some.injEq] at hs
          subst hs
          exfalso
          unfold onDown at hin
          split at hin
          · generalize nextSpawn c s.info ab an w = r at hin
            obtain ⟨i, d⟩ := r
            cases d <;> simp at hin
          · simp at hin
        · simp at hs
      | fired t w st =>
        simp only [step] at hs
        split at hs
        · rename_i hp
          simp only [Option.some.injEq] at hs
          have hone := hi.inv.one
          rw [hp.1] at hone
          have hinst : s.inst = false := by cases hh : s.inst <;> simp_all
          subst hs
          unfold onTimer at hin
          simp only [Bool.false_eq_true, if_false] at hin
          split at hin <;> (simp only at hin; rw [hinst] at hin; simp at hin)
        · simp at hs
      | cancelled t w st =>
        simp only [step] at hs
        split at hs
        · rename_i hp
          simp only [Option.some.injEq] at hs
          have hone := hi.inv.one
          rw [hp] at hone
          have hinst : s.inst = false := by cases hh : s.inst <;> simp_all
          subst hs
          unfold onTimer at hin
          simp only [if_true] at hin
          rw [hinst] at hin; simp at hin
        · simp at hs

theorem live_start (c : Cfg) : Live c State.start := ⟨inv_start c, by simp [State.start], by simp [State.start]⟩

/-- the decision taken when an instance is down -/
theorem down_decision (c : Cfg) (s s' : State) (t w : Int) (st : AState) (ab an : Bool) (hl : Live c s)
    (hst : st.rank ≤ AState.operational.rank) (h : step c s (.down t w st ab an) = some s') :
    (scheduled s' ↔ wants c.policy ab an ∧ attemptsLeft c s.out) ∧
    (scheduled s' → s'.present = true ∧ s'.info.active = true) ∧ (¬ scheduled s' → s'.present = false) := by
  simp only [step] at h
  split at h
  · rename_i hin
    simp only [Option.some.injEq] at h
    subst h
    have hact := hl.instActive hin
    have hone := hl.inv.one
    have hpend : s.pending = 0 := by rw [hin] at hone; simp at hone; omega
    have htim : s.info.timer = false := by cases hh : s.info.timer <;> simp_all
    have hatt := hl.inv.attempts
    have hpres := hl.instPresent hin
    unfold onDown
    rw [if_pos hst]
    have hescI : (checkEscalation c s.info ab).2 = true →
        ¬ (wants c.policy ab an ∧ attemptsLeft c s.out) := by
      unfold checkEscalation
      rintro he ⟨hw, hle⟩
      unfold attemptsLeft at hle
      rw [← hatt] at hle
      split at he
      · split at he
        · omega
        · split at he
          · split at he
            · rename_i hab hal
              have := hact.2 ⟨by rw [hal.1]; simp, by unfold attemptsLeft; rw [← hatt]; exact hle⟩
              rw [this] at hal; simp at hal
            · split at he
              · rename_i hno; rw [hno] at hw; simp only [wants] at hw; simp_all
              · simp at he
          · simp at he
      · simp at he
    have hescFrame := checkEscalation_eq c s.info ab
    unfold nextSpawn
    rw [if_neg (by simp [htim])]
    generalize hce : checkEscalation c s.info ab = ce at hescI hescFrame
    obtain ⟨i1, esc⟩ := ce
    simp only at hescI hescFrame ⊢
    cases esc with
    | true =>
      have := hescI rfl
      simp only [if_true, scheduled, hpend, hescFrame.2.1, htim]
      simp [this]
    | false =>
      have hi1 := hescFrame.2.2.2.2 rfl
      subst hi1
      simp only [Bool.false_eq_true, if_false]
      by_cases ha : s.info.active = false
      · have : ¬ (c.policy ≠ .never ∧ attemptsLeft c s.out) := by
          intro hc; rw [hact.2 hc] at ha; simp at ha
        have hnw : ¬ (wants c.policy ab an ∧ attemptsLeft c s.out) := by
          rintro ⟨h1, h2⟩
          by_cases hn : c.policy = .never
          · rw [hn] at h1; exact h1
          · exact this ⟨hn, h2⟩
        rw [if_pos ha]
        simp [scheduled, hpend, htim, hnw]
      · have ha' : s.info.active = true := by simpa using ha
        obtain ⟨hnn, hleft⟩ := hact.1 ha'
        rw [if_neg ha]
        by_cases h1 : c.policy = .failOnly ∧ ab = false
        · rw [if_pos h1]
          simp [scheduled, hpend, htim, h1, wants]
        · rw [if_neg h1]
          by_cases h2 : c.policy = .normalOnly ∧ ab = true
          · rw [if_pos h2]
            simp [scheduled, hpend, htim, h2, wants]
          · rw [if_neg h2]
            by_cases h3 : c.policy = .askActor ∧ an = false
            · rw [if_pos h3]
              simp [scheduled, hpend, htim, h3, wants]
            · rw [if_neg h3]
              have hw : wants c.policy ab an := by
                cases hpol : c.policy <;> simp_all [wants]
              by_cases hnow : w - s.info.last ≥ c.period
              · rw [if_pos hnow]
                simp [scheduled, hpend, hw, hleft, hpres, ha']
              · rw [if_neg hnow]
                simp [scheduled, hw, hleft, hpres, ha']
  · simp at h

/-- **C26.** Whatever happened before: when an instance is down (and the supervisor is not shutting
down), a new instance is scheduled exactly if the policy wants one and the attempts are not
exhausted; otherwise the spawner is gone for good. -/
theorem C26_restart_policy (c : Cfg) (es : List Ev) (s s' : State) (hr : run c State.start es = some s)
    (t w : Int) (st : AState) (ab an : Bool) (hst : st.rank ≤ AState.operational.rank)
    (h : step c s (.down t w st ab an) = some s') :
    (scheduled s' ↔ wants c.policy ab an ∧ attemptsLeft c s.out) ∧
    (¬ scheduled s' → s'.present = false ∧ s'.pending = 0 ∧ s'.inst = false ∧ s'.info.timer = false) := by
  have hl := live_run c es _ _ (live_start c) hr
  obtain ⟨h1, h2, h3⟩ := down_decision c s s' t w st ab an hl hst h
  refine ⟨h1, fun hn => ?_⟩
  have hi := inv_step c s s' _ hl.inv h
  exact ⟨h3 hn, hi.gone (h3 hn)⟩

/-- **C26, a scheduled instance is created.** After the decision, as soon as the queued message is
processed (at once, or after the timer fired) the factory is called. -/
theorem C26_scheduled_is_created (c : Cfg) (es : List Ev) (s s' : State) (hr : run c State.start es = some s)
    (t w : Int) (st : AState) (ab an : Bool) (hst : st.rank ≤ AState.operational.rank)
    (h : step c s (.down t w st ab an) = some s') (hsch : scheduled s') :
    (s'.pending > 0 → ∀ t2 w2 st2 sp ok, ∃ s2, step c s' (.spawn t2 w2 st2 sp ok) = some s2 ∧
      calls s2.out = calls s'.out ++ [t2]) ∧
    (s'.info.timer = true → ∀ t1 w1 st1, s'.deadline ≤ t1 → st1.rank ≤ AState.operational.rank →
      ∃ s1, step c s' (.fired t1 w1 st1) = some s1 ∧ ∀ t2 w2 st2 sp ok, ∃ s2,
        step c s1 (.spawn t2 w2 st2 sp ok) = some s2 ∧ calls s2.out = calls s'.out ++ [t2]) := by
  have hl := live_run c es _ _ (live_start c) hr
  obtain ⟨_, h2, _⟩ := down_decision c s s' t w st ab an hl hst h
  obtain ⟨hpres, hact⟩ := h2 hsch
  have create : ∀ (s1 : State), s1.present = true → s1.info.active = true → s1.pending > 0 →
      ∀ t2 w2 st2 sp ok, ∃ s2, step c s1 (.spawn t2 w2 st2 sp ok) = some s2 ∧ calls s2.out = calls s1.out ++ [t2] := by
    intro s1 hp ha hpend t2 w2 st2 sp ok
    refine ⟨_, by simp only [step]; rw [if_pos ⟨hpend, hp⟩], ?_⟩
    unfold onSpawn
    simp only [ha]
    simp only [Bool.true_eq_false, if_false]
    cases ok with
    | true => simp [calls]
    | false =>
      simp only [Bool.false_eq_true, if_false]
      split <;> simp only [calls_append] <;> split <;> simp [calls]
  refine ⟨create s' hpres hact, ?_⟩
  intro htim t1 w1 st1 hd hst1
  refine ⟨_, by simp only [step]; rw [if_pos ⟨htim, hd⟩], ?_⟩
  unfold onTimer
  simp only [Bool.false_eq_true, if_false]
  rw [if_pos hst1]
  exact create _ hpres hact (Nat.succ_pos _)

/-- **C26, a factory that throws** counts as a failing instance that cannot be asked: another attempt
is made under `always` and `fail_only` only (and not at all if that failure makes the init of the
supervisor itself fail). -/
theorem C26_throwing_factory (c : Cfg) (es : List Ev) (s s' : State) (hr : run c State.start es = some s)
    (t w : Int) (st : AState) (sp : Bool) (ha : s.info.active = true)
    (h : step c s (.spawn t w st sp false) = some s') :
    (scheduled s' ↔ wants c.policy true false ∧ c.policy ≠ .normalOnly ∧ ¬ (st = .initializing ∧ sp = true)) := by
  have hi := inv_run c es _ _ (inv_start c) hr
  simp only [step] at h
  split at h
  · rename_i hp
    simp only [Option.some.injEq] at h
    have hone := hi.one
    have hpend : s.pending = 1 := by omega
    have htim : s.info.timer = false := by cases hh : s.info.timer <;> simp_all
    subst h
    unfold onSpawn
    simp only [ha, hpend, Bool.true_eq_false, if_false, Bool.false_eq_true]
    split
    · rename_i hx
      simp only [scheduled, Nat.sub_self, gt_iff_lt, Nat.lt_irrefl, false_or, true_iff]
      refine ⟨?_, ?_, hx.2⟩
      · rcases hx.1 with h | h <;> rw [h] <;> simp [wants]
      · rcases hx.1 with h | h <;> rw [h] <;> simp
    · rename_i hx
      simp only [scheduled, Nat.sub_self, gt_iff_lt, Nat.lt_irrefl, false_or, spawnAttempt, Bool.false_eq_true, false_iff]
      rintro ⟨h1, h2, h3⟩
      apply hx
      refine ⟨?_, h3⟩
      cases hpol : c.policy <;> simp_all [wants]
  · simp at h

/-- real time does not run backwards, and the wall clock runs with it -/
def Clocks (off : Int) : Int → List Ev → Prop
  | _, [] => True
  | t0, e :: es => t0 ≤ e.time ∧ e.wall = e.time + off ∧ Clocks off e.time es

/-- distances between consecutive factory calls -/
def Spaced (d : Int) : List Int → Prop
  | [] => True
  | [_] => True
  | a :: b :: r => a + d ≤ b ∧ Spaced d (b :: r)

theorem spaced_snoc (d : Int) (l : List Int) (x : Int) (h : Spaced d l) (hl : ∀ y, l.getLast? = some y → y + d ≤ x) :
    Spaced d (l ++ [x]) := by
  induction l with
  | nil => trivial
  | cons a l ih =>
    cases l with
    | nil => exact ⟨hl a rfl, trivial⟩
    | cons b r => exact ⟨h.1, ih h.2 (fun y hy => hl y (by simpa using hy))⟩

/-- **C27.** With a clock that runs evenly, consecutive factory calls are at least `restart_period`
apart, for every policy and history. -/
theorem C27_restart_period (c : Cfg) (es : List Ev) (s : State) (off t0 : Int) (hc : Clocks off t0 es)
    (h : run c State.start es = some s) : Spaced c.period (calls s.out) := by
  -- `ready`: a queued restart may be executed from now on; an armed timer expires late enough
  have key : ∀ (es : List Ev) (s s' : State) (t0 : Int), Inv c s → Clocks off t0 es → run c s es = some s' →
      Spaced c.period (calls s.out) →
      (∀ y, (calls s.out).getLast? = some y → s.info.last = y + off ∧ y ≤ t0) →
      (s.pending > 0 → ∀ y, (calls s.out).getLast? = some y → y + c.period ≤ t0) →
      (s.info.timer = true → ∀ y, (calls s.out).getLast? = some y → y + c.period ≤ s.deadline) →
      Spaced c.period (calls s'.out) := by
    intro es
    induction es with
    | nil =>
      intro s s' t0 _ _ h hs _ _ _
      simp only [run, Option.some.injEq] at h; subst h; exact hs
    | cons e es ih =>
      intro s s' t0 hi hcl h hs hlast hpend htim
      simp only [run] at h
      cases hst : step c s e with
      | none => simp [hst] at h
      | some s1 =>
        rw [hst] at h
        obtain ⟨ht, hw, hcl'⟩ := hcl
        have hi1 := inv_step c s s1 e hi hst
        refine ih s1 s' e.time hi1 hcl' h ?_ ?_ ?_ ?_ <;> cases e with
        | spawn t w st sp ok =>
          simp only [step] at hst
          split at hst
          case isFalse => simp at hst
          rename_i hp
          simp only [Option.some.injEq] at hst
          simp only [Ev.time, Ev.wall] at ht hw ⊢
          have hone := hi.one
          have hp1 : s.pending = 1 := by omega
          have htf : s.info.timer = false := by cases hh : s.info.timer <;> simp_all
          have hready : ∀ y, (calls s.out).getLast? = some y → y + c.period ≤ t := by
            intro y hy; have := hpend hp.1 y hy; omega
          have hout : s1.out = s.out ∨ ∃ b l, s1.out = s.out ++ [.factory t b] ++ l ∧ calls l = [] ∧ s1.info.last = w := by
            subst hst
            unfold onSpawn
            simp only
            split
            · exact .inl rfl
            · cases ok with
              | true => exact .inr ⟨true, [], by simp, rfl, by simp [spawnAttempt]⟩
              | false =>
                right
                simp only [Bool.false_eq_true, if_false]
                split
                · refine ⟨false, _, rfl, ?_, by simp [spawnAttempt]⟩; split <;> rfl
                · refine ⟨false, _, rfl, ?_, by simp [spawnAttempt]⟩; split <;> rfl
          have hcalls : calls s1.out = calls s.out ∨ (calls s1.out = calls s.out ++ [t] ∧ s1.info.last = w) := by
            rcases hout with h | ⟨b, l, h1, h2, h3⟩
            · exact .inl (by rw [h])
            · right; refine ⟨?_, h3⟩; rw [h1, calls_append, calls_append, h2]; simp [calls]
          have hpend1 : s1.pending = 0 := by
            subst hst; unfold onSpawn; simp only; (repeat' split) <;> simp [hp1]
          first
          | -- spaced
            (rcases hcalls with h | ⟨h, _⟩
             · rw [h]; exact hs
             · rw [h]; exact spaced_snoc _ _ _ hs hready)
          | -- last
            (intro y hy
             rcases hcalls with h | ⟨h, h3⟩
             · have hsame : s1.info.last = s.info.last := by
                 rcases hout with h' | ⟨b, l, h1, h2, h3⟩
                 · subst hst; unfold onSpawn at h' ⊢; simp only at h' ⊢; split
                   · rfl
                   · exfalso
                     rename_i hna
                     rw [if_neg hna] at h'
                     have := congrArg List.length h'
                     cases ok <;> simp at this
                     split at this <;> simp at this
                 · exfalso
                   rw [h1, calls_append, calls_append, h2] at h
                   have := congrArg List.length h
                   simp [calls] at this
               rw [h] at hy
               have := hlast y hy
               rw [hsame]; omega
             · rw [h] at hy
               simp at hy
               subst hy
               rw [h3, hw]; omega)
          | (intro hgt; omega)
          | (intro htt y hy
             subst hst
             unfold onSpawn at htt hy ⊢
             simp only at htt hy ⊢
             split at htt
             · rw [htf] at htt; simp at htt
             · rename_i hna
               rw [if_neg hna] at hy ⊢
               cases ok with
               | true => simp [spawnAttempt] at htt
               | false =>
                 simp only [Bool.false_eq_true, if_false] at htt hy ⊢
                 split at htt
                 · rename_i hx
                   rw [if_pos hx] at hy ⊢
                   simp only at hy ⊢
                   rw [calls_append, calls_append] at hy
                   have : ∀ (p : Prop) [Decidable p], calls (if p then [Out.supInitFailed] else []) = [] := by
                     intro p _; split <;> rfl
                   rw [this] at hy
                   simp [calls] at hy
                   omega
                 · simp [spawnAttempt] at htt)
        | down t w st ab an =>
          simp only [step] at hst
          split at hst
          case isFalse => simp at hst
          rename_i hin
          simp only [Option.some.injEq] at hst
          simp only [Ev.time, Ev.wall] at ht hw ⊢
          obtain ⟨f1, f2, f3, f4⟩ := nextSpawn_frame c s.info ab an w
          have hnow : (nextSpawn c s.info ab an w).2 = .now → w - s.info.last ≥ c.period := by
            have hce := checkEscalation_eq c s.info ab
            unfold nextSpawn
            split
            · simp
            · generalize checkEscalation c s.info ab = ce at hce
              obtain ⟨i1, esc⟩ := ce
              simp only at hce ⊢
              (repeat' split) <;> simp
              rw [← hce.2.2.1]; omega
          have hone := hi.one
          have hp0 : s.pending = 0 := by rw [hin] at hone; simp at hone; omega
          have htf : s.info.timer = false := by cases hh : s.info.timer <;> simp_all
          have hc1 : calls s1.out = calls s.out := by
            subst hst; unfold onDown; split
            · generalize nextSpawn c s.info ab an w = r
              obtain ⟨i, d⟩ := r
              cases d <;> simp [calls]
            · rfl
          have hl1 : s1.info.last = s.info.last := by
            subst hst; unfold onDown; split
            · generalize nextSpawn c s.info ab an w = r at f1 f2 f3 f4
              obtain ⟨i, d⟩ := r
              cases d <;> simpa using f3
            · rfl
          first
          | (rw [hc1]; exact hs)
          | (intro y hy; rw [hc1] at hy; have := hlast y hy; rw [hl1]; omega)
          | (intro hgt y hy
             rw [hc1] at hy
             have hl := hlast y hy
             subst hst
             unfold onDown at hgt
             split at hgt
             · generalize nextSpawn c s.info ab an w = r at hgt hnow
               obtain ⟨i, d⟩ := r
               cases d <;> simp [hp0] at hgt
               have := hnow rfl
               omega
             · simp [hp0] at hgt)
          | (intro htt y hy
             rw [hc1] at hy
             have hl := hlast y hy
             subst hst
             unfold onDown at htt ⊢
             split at htt
             · rename_i hr
               rw [if_pos hr]
               generalize nextSpawn c s.info ab an w = r at htt f1 f2 f3 f4 hnow
               obtain ⟨i, d⟩ := r
               cases d <;> simp_all <;> omega
             · simp only at htt; rw [htf] at htt; simp at htt)
        | fired t w st =>
          simp only [step] at hst
          split at hst
          case isFalse => simp at hst
          rename_i hin
          simp only [Option.some.injEq] at hst
          simp only [Ev.time, Ev.wall] at ht hw ⊢
          have hc1 : s1.out = s.out ∧ s1.info.last = s.info.last ∧ s1.info.timer = false := by
            subst hst; unfold onTimer; simp only [Bool.false_eq_true, if_false]; split <;> simp
          first
          | (rw [hc1.1]; exact hs)
          | (intro y hy; rw [hc1.1] at hy; have := hlast y hy; rw [hc1.2.1]; omega)
          | (intro _ y hy; rw [hc1.1] at hy; have := htim hin.1 y hy; omega)
          | (intro htt; rw [hc1.2.2] at htt; simp at htt)
        | cancelled t w st =>
          simp only [step] at hst
          split at hst
          case isFalse => simp at hst
          rename_i hin
          simp only [Option.some.injEq] at hst
          simp only [Ev.time, Ev.wall] at ht hw ⊢
          have hone := hi.one
          rw [hin] at hone
          have hp0 : s.pending = 0 := by simp at hone; omega
          have hc1 : s1.out = s.out ∧ s1.info.last = s.info.last ∧ s1.info.timer = false ∧ s1.pending = 0 := by
            subst hst; unfold onTimer; simp only [if_true]; simp [hp0]
          first
          | (rw [hc1.1]; exact hs)
          | (intro y hy; rw [hc1.1] at hy; have := hlast y hy; rw [hc1.2.1]; omega)
          | (intro hgt; omega)
          | (intro htt; rw [hc1.2.2.1] at htt; simp at htt)
  refine key es State.start s t0 (inv_start c) hc h trivial ?_ ?_ ?_ <;> simp [State.start, calls]

/-- **C27, nothing gets lost.** As long as the supervisor is up and nobody cancels timers, an active
spawner always has an instance, a queued restart or an armed restart timer. -/
theorem C27_no_lost_restart (c : Cfg) (es : List Ev) (s : State) (hcalm : Calm es)
    (h : run c State.start es = some s) (ha : s.info.active = true) (hp : s.present = true) :
    s.inst = true ∨ scheduled s := by
  have key : ∀ (es : List Ev) (s s' : State), Inv c s → Calm es → run c s es = some s' →
      (s.info.active = true → s.present = true → s.inst = true ∨ scheduled s) →
      (s'.info.active = true → s'.present = true → s'.inst = true ∨ scheduled s') := by
    intro es
    induction es with
    | nil => intro s s' _ _ h hx; simp only [run, Option.some.injEq] at h; subst h; exact hx
    | cons e es ih =>
      intro s s' hi hcm h hx
      simp only [run] at h
      cases hst : step c s e with
      | none => simp [hst] at h
      | some s1 =>
        rw [hst] at h
        refine ih s1 s' (inv_step c s s1 e hi hst) (fun e he => hcm e (by simp [he])) h ?_
        have hcal := hcm e (by simp)
        intro ha1 hp1
        cases e with
        | spawn t w st sp ok =>
          simp only [step] at hst
          split at hst
          case isFalse => simp at hst
          rename_i hpp
          simp only [Option.some.injEq] at hst
          have hone := hi.one
          subst hst
          unfold onSpawn at ha1 hp1 ⊢
          simp only at ha1 hp1 ⊢
          split
          · rename_i hna; rw [if_pos hna] at ha1; simp only at ha1; rw [hna] at ha1; simp at ha1
          · rename_i hna
            rw [if_neg hna] at ha1 hp1
            cases ok with
            | true => simp
            | false =>
              simp only [Bool.false_eq_true, if_false] at ha1 hp1 ⊢
              split
              · right; right; simp
              · rename_i hx; rw [if_neg hx] at ha1; simp at ha1
        | down t w st ab an =>
          simp only [step] at hst
          split at hst
          case isFalse => simp at hst
          simp only [Option.some.injEq] at hst
          simp only [Ev.sup] at hcal
          subst hst
          unfold onDown at ha1 hp1 ⊢
          rw [if_pos hcal.1] at ha1 hp1 ⊢
          generalize nextSpawn c s.info ab an w = r at ha1 hp1 ⊢
          obtain ⟨i, d⟩ := r
          cases d <;> simp_all [scheduled]
        | fired t w st =>
          simp only [step] at hst
          split at hst
          case isFalse => simp at hst
          simp only [Option.some.injEq] at hst
          simp only [Ev.sup] at hcal
          subst hst
          right; left
          unfold onTimer
          simp only [Bool.false_eq_true, if_false]
          rw [if_pos hcal.1]
          exact Nat.succ_pos _
        | cancelled t w st => exact absurd rfl (hcal.2 t w st)
  exact key es State.start s (inv_start c) hcalm h (by simp [State.start, scheduled]) ha hp

/-- **C28 (partial).** When a (non-restarted) instance is down, the exact condition under which the
supervisor is shut down with `failure_escalation`; and without the flag it never is.

Missing from the full claim: a failing instance under the policies `never` and `ask_actor` that is
not restarted is not escalated although `escalate_failure` is set
(`C28_never_not_escalated_counterexample`), and exhausted attempts escalate after a *normal* shutdown
as well (`C28_normal_escalated_counterexample`). -/
theorem C28_escalation_exact_partial (c : Cfg) (es : List Ev) (s s' : State) (hr : run c State.start es = some s)
    (t w : Int) (st : AState) (ab an : Bool) (hst : st.rank ≤ AState.operational.rank)
    (h : step c s (.down t w st ab an) = some s') :
    (s'.out = s.out ++ [.escalate] ↔ c.escalateFailure = true ∧
      (¬ attemptsLeft c s.out ∨ (ab = true ∧ c.policy = .normalOnly))) ∧
    (s'.out = s.out ∨ s'.out = s.out ++ [.escalate]) ∧
    (c.policy ≠ .never → c.policy ≠ .askActor → ab = true → c.escalateFailure = true →
      (¬ scheduled s' ↔ s'.out = s.out ++ [.escalate])) := by
  have hl := live_run c es _ _ (live_start c) hr
  obtain ⟨hd, _, _⟩ := down_decision c s s' t w st ab an hl hst h
  simp only [step] at h
  split at h
  case isFalse => simp at h
  rename_i hin
  simp only [Option.some.injEq] at h
  have hone := hl.inv.one
  have htim : s.info.timer = false := by rw [hin] at hone; cases hh : s.info.timer <;> simp_all
  have hact := hl.instActive hin
  have hatt := hl.inv.attempts
  have hneq : s.out ≠ s.out ++ [.escalate] := by intro hc; have := congrArg List.length hc; simp at this
  have hesc : (checkEscalation c s.info ab).2 = true ↔ c.escalateFailure = true ∧
      (¬ attemptsLeft c s.out ∨ (ab = true ∧ c.policy = .normalOnly)) := by
    unfold checkEscalation
    cases hef : c.escalateFailure with
    | false => simp
    | true =>
      simp only [if_true, true_and]
      by_cases hm : c.maxAttempts ≠ 0 ∧ s.info.attempts ≥ c.maxAttempts
      · rw [if_pos hm]
        simp only [true_iff]
        left; unfold attemptsLeft; rw [← hatt]; omega
      · rw [if_neg hm]
        have hleft : attemptsLeft c s.out := by unfold attemptsLeft; rw [← hatt]; omega
        cases ab with
        | false => simp [hleft]
        | true =>
          simp only [if_true, hleft, not_true_eq_false, true_and, false_or]
          have hna : ¬ (c.policy = .always ∧ s.info.active = false) := by
            rintro ⟨h1, h2⟩
            have := hact.2 ⟨by rw [h1]; simp, hleft⟩
            rw [this] at h2; simp at h2
          rw [if_neg hna]
          split <;> simp_all
  have hout : s'.out = if (checkEscalation c s.info ab).2 = true then s.out ++ [.escalate] else s.out := by
    subst h
    unfold onDown
    rw [if_pos hst]
    unfold nextSpawn
    rw [if_neg (by simp [htim])]
    generalize checkEscalation c s.info ab = ce
    obtain ⟨i1, esc⟩ := ce
    simp only
    cases esc with
    | true => simp
    | false =>
      simp only [Bool.false_eq_true, if_false]
      (repeat' split) <;> simp_all
  refine ⟨?_, ?_, ?_⟩
  · rw [← hesc, hout]
    split <;> simp_all
  · rw [hout]; split <;> simp
  · intro h1 h2 h3 h4
    rw [hd]
    have : s'.out = s.out ++ [.escalate] ↔ (checkEscalation c s.info ab).2 = true := by
      rw [hout]; split <;> simp_all
    rw [this, hesc, h3, h4]
    simp only [true_and]
    constructor
    · intro hn
      by_cases hleft : attemptsLeft c s.out
      · right
        cases hp : c.policy <;> simp_all [wants]
      · exact .inl hleft
    · rintro (hx | hx) ⟨hw, hleft⟩
      · exact hx hleft
      · rw [hx] at hw; simp [wants] at hw

/-- **C28, not without being asked.** Without `escalate_failure` the supervisor is never shut down by
a spawner. -/
theorem C28_no_flag_no_escalation (c : Cfg) (hf : c.escalateFailure = false) (es : List Ev) (s : State)
    (h : run c State.start es = some s) : Out.escalate ∉ s.out := by
  have key : ∀ (es : List Ev) (s s' : State), run c s es = some s' → Out.escalate ∉ s.out → Out.escalate ∉ s'.out := by
    intro es
    induction es with
    | nil => intro s s' h; simp only [run, Option.some.injEq] at h; subst h; exact id
    | cons e es ih =>
      intro s s' h hn
      simp only [run] at h
      cases hst : step c s e with
      | none => simp [hst] at h
      | some s1 =>
        rw [hst] at h
        refine ih s1 s' h ?_
        cases e with
        | spawn t w st sp ok =>
          simp only [step] at hst
          split at hst <;> simp only [Option.some.injEq, reduceCtorEq] at hst
          subst hst
          unfold onSpawn
          simp only
          (repeat' split) <;> simp_all
        | down t w st ab an =>
          simp only [step] at hst
          split at hst <;> simp only [Option.some.injEq, reduceCtorEq] at hst
          subst hst
          have hne : (nextSpawn c s.info ab an w).2 ≠ .escalate := by
            unfold nextSpawn checkEscalation
            rw [hf]
            simp only [Bool.false_eq_true, if_false]
            (repeat' split) <;> simp
          unfold onDown
          split
          · generalize nextSpawn c s.info ab an w = r at hne
            obtain ⟨i, d⟩ := r
            cases d <;> simp_all
          · exact hn
        | fired t w st =>
          simp only [step] at hst
          split at hst <;> simp only [Option.some.injEq, reduceCtorEq] at hst
          subst hst
          unfold onTimer
          simp only [Bool.false_eq_true, if_false]
          split <;> exact hn
        | cancelled t w st =>
          simp only [step] at hst
          split at hst <;> simp only [Option.some.injEq, reduceCtorEq] at hst
          subst hst
          exact hn
  exact key es _ _ h (by simp [State.start])

/-- An instance crashes; with `restart_policy_t::never` and `escalate_failure` nobody hears of it. -/
theorem C28_never_not_escalated_counterexample :
    ∃ c es s, c.escalateFailure = true ∧ c.policy = .never ∧ run c State.start es = some s ∧
      es = [.spawn 0 0 .operational true true, .down 1 1 .operational true false] ∧
      ¬ scheduled s ∧ s.present = false ∧ Out.escalate ∉ s.out :=
  ⟨⟨.never, 10, 0, true⟩, _, _, rfl, rfl, rfl, rfl, by simp [scheduled, onDown, nextSpawn, checkEscalation, onSpawn, spawnAttempt, State.start, AState.rank], rfl, by decide⟩

/-- The last permitted instance ends normally, and the supervisor is shut down with
`failure_escalation`. -/
theorem C28_normal_escalated_counterexample :
    ∃ c es s, c.escalateFailure = true ∧ run c State.start es = some s ∧
      es = [.spawn 0 0 .operational true true, .down 1 1 .operational false false] ∧ Out.escalate ∈ s.out :=
  ⟨⟨.always, 10, 1, true⟩, _, _, rfl, rfl, rfl, by decide⟩

/-- The restart period is measured with the local wall clock: when it jumps (daylight saving time),
an instance is recreated at once. -/
theorem C27_wall_clock_counterexample :
    ∃ c es s, run c State.start es = some s ∧
      es = [.spawn 0 0 .operational true true, .down 1 3601 .operational false false, .spawn 2 3602 .operational true true] ∧
      c.period = 15 ∧ calls s.out = [0, 2] :=
  ⟨⟨.always, 15, 0, false⟩, _, _, rfl, rfl, rfl, by decide⟩

/-- a restart through the timer, after a crash, with a limit of three attempts -/
def exCfg : Cfg := ⟨.failOnly, 10, 3, false⟩
def exEvs : List Ev := [.spawn 0 100 .operational true true, .down 4 104 .operational true false,
  .fired 14 114 .operational, .spawn 14 114 .operational true false, .fired 24 124 .operational,
  .spawn 25 125 .operational true true]

example : ∃ s, run exCfg State.start exEvs = some s ∧ calls s.out = [0, 14, 25] ∧ s.inst = true ∧
    s.info.active = false ∧ Clocks 100 0 exEvs ∧ Calm exEvs := by
  refine ⟨_, rfl, by decide, by decide, by decide, ?_, ?_⟩
  · simp [exEvs, Clocks, Ev.time, Ev.wall]
  · intro e he
    simp only [exEvs, List.mem_cons, List.not_mem_nil, or_false] at he
    rcases he with rfl | rfl | rfl | rfl | rfl | rfl <;> simp [Ev.sup, AState.rank]

end Verif.Spawner
