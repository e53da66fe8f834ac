import Verif.Starter.Progress
/-!
# C57: cases, and what the starter plugin does not guarantee
-/

namespace Verif.Starter
open Verif

variable {own : Cfg} {σ σ' : State}

/-- addresses below 10 are of the own locality -/
def low : Cfg := fun p => decide (p < 10)

/-- the other plugins agree, or not -/
def yes (cfg : List Nat) : Vote := ⟨[], true, cfg, [], true⟩
def no : Vote := ⟨[], false, [], [], true⟩

theorem reach_run {G : State → Op → Prop} : ∀ (ops : List Op) {σ σ' : State}, Reach own G σ → (∀ σ op, op ∈ ops → G σ op) → run own σ ops = .ok σ' → Reach own G σ' := by
  intro ops
  induction ops with
  | nil => intro σ σ' h _ h1; simp only [run] at h1; cases h1; exact h
  | cons o os ih =>
    intro σ σ' h hG h1
    simp only [run] at h1
    split at h1
    · cases h1
    · rename_i σ1 h2
      exact ih (h.step (hG σ o (by simp)) h2) (fun σ op h => hG σ op (by simp [h])) h1

def out (own : Cfg) (ops : List Op) (f : State → Bool) : Bool :=
  match run own State.init ops with
  | .ok σ => f σ
  | .error _ => false

def fails (own : Cfg) (ops : List Op) (e : Err) : Bool :=
  match run own State.init ops with
  | .ok _ => false
  | .error e' => decide (e = e')

/-- `C57_awaited`: two handlers, one of them at a foreign address; the last confirmation completes the initialization -/
example : out low [.init (yes [1, 20]), .confirm 1 (yes []), .attach 20] (fun σ => decide (σ.st = .initializing ∧ σ.configured = true ∧ σ.conf = [20] ∧ σ.tracked = [20])) = true ∧
    out low [.init (yes [1, 20]), .confirm 1 (yes []), .attach 20, .confirm 20 (yes []), .start, .start] (fun σ => decide (σ.st = .operational ∧ σ.attached 20 = true ∧
      σ.log = [.started, .replied, .confirmed 20, .attached 20, .confirmed 1, .subscribed 20, .attached 1, .subscribed 1])) = true := by decide

/-- .. the hypotheses of `C57_awaited` hold before the last step -/
example : ∃ σ σ', Reach low (fun _ op => Last op) σ ∧ Last (.confirm 20 (yes [])) ∧ step low σ (.confirm 20 (yes [])) = .ok σ' ∧ σ.st ≠ .initialized ∧
    σ'.st = .initialized ∧ .subscribed 20 ∈ σ'.log := by
  refine ⟨_, _, reach_run (own := low) [.init (yes [1, 20]), .confirm 1 (yes []), .attach 20] .init ?_ rfl, ?_, rfl, by decide, by decide, by decide⟩
  · intro σ op hop v hv
    simp at hop
    rcases hop with rfl | rfl | rfl <;> simp [Op.vote] at hv <;> subst hv <;> exact ⟨rfl, rfl⟩
  · intro v hv
    simp [Op.vote] at hv; subst hv; exact ⟨rfl, rfl⟩

/-- `C57_progress_partial`: another plugin refuses when the last confirmation comes, and agrees later -/
example : out low [.init (yes [1]), .confirm 1 no] (fun σ => decide (σ.st = .initializing ∧ σ.req = true ∧ σ.conf = [] ∧ σ.ext = [] ∧ σ.configured = true)) = true ∧
    out low [.init (yes [1]), .confirm 1 no, .poll (yes [])] (fun σ => decide (σ.st = .initialized)) = true := by decide

example : ∃ σ, Reach low Quiet σ ∧ σ.st = .initializing ∧ σ.req = true ∧ σ.conf = [] ∧ σ.ext = [] ∧ σ.configured = true := by
  refine ⟨_, (Reach.init.step (op := .init (yes [1])) ⟨?_, ?_⟩ rfl).step (op := .confirm 1 no) ⟨?_, ?_⟩ rfl, by decide, by decide, by decide, by decide, by decide⟩
  · intro v hv; simp [Op.vote] at hv; subst hv; exact ⟨rfl, rfl⟩
  · first | exact .inl rfl | rfl
  · intro v hv; simp [Op.vote] at hv; subst hv; exact ⟨rfl, rfl⟩
  · first | exact .inl rfl | rfl

/-- `C57_complete_partial`: an actor that waits -/
example : ∃ σ, Reach low Agreed σ ∧ σ.st = .initializing ∧ σ.configured = true := by
  refine ⟨_, Reach.init.step (op := .init (yes [1])) ⟨⟨?_, .inl rfl⟩, ?_⟩ rfl, by decide, by decide⟩
  · intro v hv; simp [Op.vote] at hv; subst hv; exact ⟨rfl, rfl⟩
  · intro v hv; simp [Op.vote] at hv; subst hv; rfl

/-- `C57_safe_partial`: a careful execution, and a step that is refused -/
example : ∃ σ, Reach low Careful σ ∧ Careful σ (.confirm 2 (yes [])) ∧ step low σ (.confirm 2 (yes [])) = .error .illegal := by
  refine ⟨_, Reach.init.step (op := .init (yes [1])) ⟨?_, ?_⟩ rfl, ⟨?_, ?_⟩, rfl⟩
  · intro v hv; simp [Op.vote] at hv; subst hv; exact ⟨rfl, rfl⟩
  · exact ⟨by decide, by intro p _; simp [State.init]⟩
  · intro v hv; simp [Op.vote] at hv; subst hv; exact ⟨rfl, rfl⟩
  · exact ⟨by decide, by intro p hp; simp [yes] at hp⟩

/-- C57: a handler that is subscribed after the last confirmation, while another plugin still holds the initialization, is confirmed, but the
plugin does not take notice: the initialization does not complete any more -/
theorem C57_late_counterexample :
    out low [.init (yes [1]), .confirm 1 no, .subscribe 2, .confirm 2 no, .poll (yes [])] (fun σ => decide (σ.st = .initializing ∧ σ.configured = true ∧ σ.subs = false ∧
      σ.tracked = [2] ∧ σ.attached 2 = true ∧ σ.conf = [] ∧ σ.ext = [])) = true := by decide

theorem subscribeAll_tracked (l : List Nat) : ∀ {σ σ' : State}, σ.tracked ≠ [] → subscribeAll own l σ = .ok σ' →
    σ'.tracked ≠ [] ∧ σ'.st = σ.st ∧ σ'.inits = σ.inits ∧ σ'.subs = σ.subs ∧ σ'.configured = σ.configured := by
  induction l with
  | nil => intro σ σ' ht h; simp only [subscribeAll] at h; cases h; exact ⟨ht, rfl, rfl, rfl, rfl⟩
  | cons p l ih =>
    intro σ σ' ht h
    simp only [subscribeAll] at h
    cases h1 : subscribe own p σ with
    | error e => rw [h1] at h; cases h
    | ok σ1 =>
      rw [h1] at h
      have : σ1.tracked ≠ [] ∧ σ1.st = σ.st ∧ σ1.inits = σ.inits ∧ σ1.subs = σ.subs ∧ σ1.configured = σ.configured := by
        unfold subscribe at h1
        split at h1
        · cases h1
        · split at h1 <;> cases h1 <;> exact ⟨by simp, rfl, rfl, rfl, rfl⟩
      obtain ⟨a, b, c, d, e⟩ := this
      obtain ⟨a', b', c', d', e'⟩ := ih a h
      exact ⟨a', b'.trans b, c'.trans c, d'.trans d, e'.trans e⟩

/-- such an actor stays INITIALIZING whatever happens, until it is shut down -/
theorem C57_stuck {op : Op} (hs : σ.st = .initializing) (hi : σ.inits = true) (hc : σ.configured = true) (hb : σ.subs = false) (ht : σ.tracked ≠ [])
    (ho : op ≠ .shut) (h : step own σ op = .ok σ') :
    σ'.st = .initializing ∧ σ'.inits = true ∧ σ'.configured = true ∧ σ'.subs = false ∧ σ'.tracked ≠ [] := by
  have cont : ∀ {σ0 : State} {v : Vote}, σ0.st = .initializing → σ0.inits = true → σ0.configured = true → σ0.subs = false → σ0.tracked ≠ [] →
      initContinue own v σ0 = .ok σ' → σ'.st = .initializing ∧ σ'.inits = true ∧ σ'.configured = true ∧ σ'.subs = false ∧ σ'.tracked ≠ [] := by
    intro σ0 v hs hi hc hb ht h
    unfold initContinue at h
    split at h
    · cases h
    cases h1 : subscribeAll own v.front σ0 with
    | error e => rw [h1] at h; cases h
    | ok σ1 =>
      rw [h1] at h
      obtain ⟨a, b, c, d, e⟩ := subscribeAll_tracked _ ht h1
      rw [hs] at b; rw [hi] at c; rw [hb] at d; rw [hc] at e
      simp only at h
      split at h
      · unfold fromStarter at h
        rw [if_pos c] at h
        unfold handleInit at h
        rw [if_pos e] at h
        have : σ1.tracked.isEmpty = false := by simpa using a
        simp only [this] at h
        cases h
        exact ⟨b, c, e, d, a⟩
      · cases h
        exact ⟨b, c, e, d, a⟩
  cases op with
  | init v =>
    simp only [step] at h
    split at h
    · cases h
    · exact cont (σ0 := { σ with req := true, asked := true }) hs hi hc hb ht h
  | poll v =>
    simp only [step] at h
    split at h
    · exact cont hs hi hc hb ht h
    · cases h
  | confirm p v =>
    simp only [step] at h
    split at h
    · unfold onConfirm at h
      rw [if_neg (by simp [hb])] at h
      cases h
      exact ⟨hs, hi, hc, hb, ht⟩
    · cases h
  | attach q => simp only [step] at h; split at h <;> cases h; exact ⟨hs, hi, hc, hb, ht⟩
  | subscribe q =>
    have h' : subscribeAll own [q] σ = .ok σ' := by simp only [step] at h; simp only [subscribeAll, h]
    obtain ⟨a, b, c, d, e⟩ := subscribeAll_tracked _ ht h'
    exact ⟨b.trans hs, c.trans hi, e.trans hc, d.trans hb, a⟩
  | drop q => simp only [step] at h; split at h <;> cases h; exact ⟨hs, hi, hc, hb, ht⟩
  | fail => simp only [step] at h; split at h <;> cases h; exact ⟨hs, hi, hc, hb, ht⟩
  | shut => exact absurd rfl ho
  | deactivate => simp only [step] at h; rw [if_neg (by simp [hs])] at h; cases h
  | start => simp only [step] at h; rw [if_neg (by simp [hs])] at h; cases h; exact ⟨hs, hi, hc, hb, ht⟩

/-- C57: another plugin answers the init request with an error while a confirmation is under way; its arrival continues an initialization without a request -/
theorem C57_failed_counterexample : fails low [.init (yes [1]), .fail, .confirm 1 (yes [])] .fault = true := by decide

/-- C57: a handler subscribed by an operational actor, unsubscribed and subscribed again: "already subscribed" -/
theorem C57_again_counterexample :
    out low [.init (yes []), .start, .subscribe 3, .confirm 3 no, .drop 3] (fun σ => decide (σ.st = .operational ∧ σ.attached 3 = false ∧ σ.conf = [])) = true ∧
    fails low [.init (yes []), .start, .subscribe 3, .confirm 3 no, .drop 3, .subscribe 3] .fault = true := by decide

/-- C57: a plugin behind the starter subscribes a handler of the actor: nobody waits for it -/
theorem C57_behind_counterexample :
    out low [.init ⟨[], true, [], [20], true⟩] (fun σ => decide (σ.st = .initialized ∧ σ.attached 20 = false ∧ σ.ext = [20])) = true := by decide

end Verif.Starter
