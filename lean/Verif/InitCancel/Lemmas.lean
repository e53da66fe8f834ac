import Verif.InitCancel.Spec
/-!
# Taking back the request for initialization: what each step does to the tables
-/

namespace Verif.InitCancel
open Verif

/-- in which ways requests and timers may end -/
def Fits (c : Cfg) (s : Nat) (w : What) : How → Prop
  | .answered => w ≠ .timer
  | .expired => True
  | .givenUp x => w ≠ .timer ∧ c.isSup s = true ∧ (w = .init x ∨ (x = s ∧ Apart c s))
  | .stopped b => source s w = b ∨ b = s
  | .cancelled => w = .timer

theorem ends_ended (s n s' n' : Nat) (w h) (log : List Ev) :
    ends s n (.ended s' n' w h :: log) = ends s n log + if s' = s ∧ n' = n then 1 else 0 := by
  simp [ends, List.countP_cons]

theorem ends_made (s n s' n' : Nat) (w) (log : List Ev) : ends s n (.made s' n' w :: log) = ends s n log := by
  simp [ends, List.countP_cons]

theorem ends_dropped (s n s' n' : Nat) (log : List Ev) : ends s n (.dropped s' n' :: log) = ends s n log := by
  simp [ends, List.countP_cons]

structure Inv (c : Cfg) (σ : State) : Prop where
  le : ∀ s n w, Ev.made s n w ∈ σ.log → n ≤ σ.last (c.loc s)
  uniq : ∀ s n w s' w', Ev.made s n w ∈ σ.log → Ev.made s' n w' ∈ σ.log → c.loc s = c.loc s' → s = s' ∧ w = w'
  tim : ∀ s n w, AMap.find (σ.timers s) n = some w → Ev.made s n w ∈ σ.log
  req : ∀ s n w, AMap.find (σ.reqs s) n = some w ↔ AMap.find (σ.timers s) n = some w ∧ w ≠ .timer
  net : ∀ x n, (x, n) ∈ σ.net → Ev.made (c.mgr x) n (.init x) ∈ σ.log
  held : ∀ x n, σ.held x = some n → Ev.made (c.mgr x) n (.init x) ∈ σ.log
  mgr : ∀ s n x, Ev.made s n (.init x) ∈ σ.log → s = c.mgr x ∧ c.isSup s = true
  home : ∀ s n a, Ev.made s n (.user a) ∈ σ.log → s = c.home a
  act : ∀ b n, n ∈ σ.active b → ∃ w, Ev.made (c.home b) n w ∈ σ.log ∧ source (c.home b) w = b
  act2 : ∀ s n w, AMap.find (σ.reqs s) n = some w → n ∈ σ.active (source s w)
  books : ∀ s n w, Ev.made s n w ∈ σ.log → ends s n σ.log = if (AMap.find (σ.timers s) n).isSome then 0 else 1
  none : ∀ s n, (∀ w, Ev.made s n w ∉ σ.log) → ends s n σ.log = 0
  why : ∀ s n w h, Ev.ended s n w h ∈ σ.log → Ev.made s n w ∈ σ.log ∧ Fits c s w h

theorem home_of_sup {c : Cfg} {s} (h : c.isSup s = true) : c.home s = s := by simp [Cfg.home, h]

/-- a request is entered at the supervisor of the actor that made it -/
theorem Inv.src {c : Cfg} {σ} (i : Inv c σ) {s n w} (h : Ev.made s n w ∈ σ.log) (ht : w ≠ .timer) : s = c.home (source s w) := by
  cases w with
  | init x => exact (home_of_sup (i.mgr _ _ _ h).2).symm
  | user a => exact i.home _ _ _ h
  | timer => exact absurd rfl ht

theorem Inv.init (c : Cfg) : Inv c State.init := by
  constructor <;> simp [State.init, ends]

/-- `n` of `s` ends -/
structure Ends (s n : Nat) (w : What) (h : How) (σ σ' : State) : Prop where
  timers : ∀ s' n', AMap.find (σ'.timers s') n' = if s' = s ∧ n' = n then none else AMap.find (σ.timers s') n'
  reqs : ∀ s' n', AMap.find (σ'.reqs s') n' = if s' = s ∧ n' = n then none else AMap.find (σ.reqs s') n'
  log : σ'.log = .ended s n w h :: σ.log
  last : σ'.last = σ.last
  net : σ'.net = σ.net
  held : σ'.held = σ.held
  created : σ'.created = σ.created
  active : ∀ b m, m ∈ σ'.active b → m ∈ σ.active b
  active2 : ∀ b m, m ∈ σ.active b → (w ≠ .timer ∧ b = source s w ∧ m = n) ∨ m ∈ σ'.active b

theorem Ends.inv {c : Cfg} {s n w h σ σ'} (i : Inv c σ) (hw : AMap.find (σ.timers s) n = some w) (f : Fits c s w h)
    (e : Ends s n w h σ σ') : Inv c σ' := by
  have hm := i.tim s n w hw
  constructor
  · intro s n w; rw [e.log, e.last]; simpa using i.le s n w
  · intro s n w s' w'; rw [e.log]; simpa using i.uniq s n w s' w'
  · intro s' n' w'; rw [e.timers, e.log]
    intro h'; split at h'
    · cases h'
    · simpa using i.tim _ _ _ h'
  · intro s' n' w'; rw [e.timers, e.reqs]
    split
    · simp
    · exact i.req _ _ _
  · intro x n; rw [e.log, e.net]; simpa using i.net x n
  · intro x n; rw [e.log, e.held]; simpa using i.held x n
  · intro s n x; rw [e.log]; simpa using i.mgr s n x
  · intro s n x; rw [e.log]; simpa using i.home s n x
  · intro b m hb; obtain ⟨w', h1, h2⟩ := i.act b m (e.active b m hb)
    exact ⟨w', by rw [e.log]; simpa using h1, h2⟩
  · intro s' n' w'; rw [e.reqs]
    split
    · simp
    · rename_i hne; intro h'
      rcases e.active2 _ _ (i.act2 _ _ _ h') with ⟨h0, h1, h2⟩ | h1
      · exfalso; apply hne
        have a1 := i.src (i.tim _ _ _ ((i.req _ _ _).mp h').1) ((i.req _ _ _).mp h').2
        have a2 := i.src hm h0
        rw [h1, ← a2] at a1
        exact ⟨a1, h2⟩
      · exact h1
  · intro s' n' w'; rw [e.log, e.timers]
    intro h1
    have h1 : Ev.made s' n' w' ∈ σ.log := by simpa using h1
    have := i.books s' n' w' h1
    by_cases hc : s' = s ∧ n' = n
    · obtain ⟨rfl, rfl⟩ := hc
      rw [hw] at this
      simp [ends_ended, this]
    · have hc' : ¬ (s = s' ∧ n = n') := fun h => hc ⟨h.1.symm, h.2.symm⟩
      rw [ends_ended, if_neg hc, if_neg hc', this, Nat.add_zero]
  · intro s' n'; rw [e.log]
    intro h1
    have h1 : ∀ w', Ev.made s' n' w' ∉ σ.log := fun w' => by simpa using h1 w'
    have := i.none s' n' h1
    have hc' : ¬ (s = s' ∧ n = n') := by rintro ⟨rfl, rfl⟩; exact h1 w hm
    rw [ends_ended, if_neg hc', this]
  · intro s' n' w' h'; rw [e.log]
    intro h1
    rcases List.mem_cons.mp h1 with h1 | h1
    · cases h1; exact ⟨by simpa using hm, f⟩
    · exact ⟨by simpa using (i.why _ _ _ _ h1).1, (i.why _ _ _ _ h1).2⟩

theorem trigger_ends {c : Cfg} {s n w h σ} (i : Inv c σ) (hw : AMap.find (σ.timers s) n = some w) :
    Ends s n w h σ (onTimerTrigger s n h σ) := by
  have hr := i.req s n
  unfold onTimerTrigger
  rw [hw]
  by_cases ht : w = .timer
  · subst ht
    have hn : AMap.find (σ.reqs s) n = none := by
      cases hh : AMap.find (σ.reqs s) n with
      | none => rfl
      | some v => have := (hr v).mp hh; rw [hw] at this; simp at this; exact absurd this.1.symm this.2
    constructor <;> simp only [if_true] <;> try (first | rfl | (intros; assumption) | (intros; right; assumption))
    · intro s' n'; simp only [upd]; split <;> grind [AMap.find_erase]
    · intro s' n'; grind
  · have hn : AMap.find (σ.reqs s) n = some w := (hr w).mpr ⟨hw, ht⟩
    simp only [if_neg ht, onRequestTrigger, hn]
    constructor <;> try rfl
    · intro s' n'; simp only [upd]; split <;> grind [AMap.find_erase]
    · intro s' n'; simp only [upd]; split <;> grind [AMap.find_erase]
    · intro b m; simp only [upd]; grind
    · intro b m hm
      by_cases hb : b = source s w ∧ m = n
      · exact Or.inl ⟨ht, hb⟩
      · right; simp only [upd]; split
        · rename_i hb'; simp only [List.mem_filter, decide_eq_true_eq]
          exact ⟨hb' ▸ hm, fun hmn => hb ⟨hb', hmn⟩⟩
        · exact hm

theorem trigger_none {s n h σ} (hw : AMap.find (σ.timers s) n = none) : onTimerTrigger s n h σ = σ := by
  simp [onTimerTrigger, hw]

/-- without an assertion -/
theorem discard_ends {c : Cfg} {s n w h σ} (i : Inv c σ) (hw : AMap.find (σ.timers s) n = some w) (ht : w ≠ .timer) :
    ∃ σ', discardRequest s n h σ = .ok σ' ∧ Ends s n w h σ σ' := by
  have hr : AMap.find (σ.reqs s) n = some w := (i.req s n w).mpr ⟨hw, ht⟩
  have e := trigger_ends (h := h) i hw
  refine ⟨_, by simp only [discardRequest, cancelTimer, hr, hw, Option.isSome_some, if_true]; rfl, ?_⟩
  constructor
  · exact e.timers
  · intro s' n'; have := e.reqs s' n'; simp only [upd]; split
    · subst_vars; grind [AMap.find_erase]
    · exact this
  · exact e.log
  · exact e.last
  · exact e.net
  · exact e.held
  · exact e.created
  · exact e.active
  · exact e.active2

theorem discard_timer {c : Cfg} {s n h σ} (i : Inv c σ) (hw : AMap.find (σ.timers s) n = some .timer) :
    discardRequest s n h σ = .error .assertion := by
  have hn : AMap.find (σ.reqs s) n = none := by
    cases hh : AMap.find (σ.reqs s) n with
    | none => rfl
    | some v => have := (i.req s n v).mp hh; rw [hw] at this; simp at this; exact absurd this.1.symm this.2
  simp [discardRequest, hn]

/-- what `cancel_init` can find under the number it looks up -/
theorem held_find {c : Cfg} {s x n w σ} (i : Inv c σ) (hx : σ.held x = some n) (hw : AMap.find (σ.timers s) n = some w)
    (hl : c.loc s = c.loc (c.mgr x)) : s = c.mgr x ∧ w = .init x :=
  i.uniq s n w _ _ (i.tim s n w hw) (i.held x n hx) hl

theorem mgr_of_child {c : Cfg} {s x} (h : x = s ∨ c.parent x = some s) : s = c.mgr x ∨ (x = s ∧ ∃ p, c.parent s = some p ∧ c.mgr x = p) := by
  rcases h with h | h
  · subst h
    cases hp : c.parent x with
    | none => left; simp [Cfg.mgr, hp]
    | some p => right; exact ⟨rfl, p, rfl, by simp [Cfg.mgr, hp]⟩
  · left; simp [Cfg.mgr, h]

/-- something new is put into the tables -/
theorem Inv.fresh {c : Cfg} {σ} (i : Inv c σ) (s : Nat) (w : What) : Ev.made s (draw c s σ) w ∉ σ.log := by
  intro h; have := i.le _ _ _ h; simp only [draw] at this; omega

theorem Inv.fresh' {c : Cfg} {σ} (i : Inv c σ) {s s' : Nat} (hl : c.loc s' = c.loc s) (w : What) :
    Ev.made s' (draw c s σ) w ∉ σ.log := by
  intro h; have := i.le _ _ _ h; rw [hl] at this; simp only [draw] at this; omega

end Verif.InitCancel
