import Verif.Starter.Model
/-!
# C57: what the starter plugin guarantees
-/

namespace Verif.Starter
open Verif

variable {own : Cfg} {σ σ' : State}

/-- the vote of an operation -/
def Op.vote : Op → Option Vote
  | .init v => some v
  | .confirm _ v => some v
  | .poll v => some v
  | _ => none

/-- the starter is the last plugin, `actor_base.h:70-78` -/
def Last (op : Op) : Prop := ∀ v, op.vote = some v → v.behind = [] ∧ v.after = true

/-- the executions all of whose operations satisfy `G` -/
inductive Reach (own : Cfg) (G : State → Op → Prop) : State → Prop where
  | init : Reach own G State.init
  | step {σ σ' : State} {op : Op} : Reach own G σ → G σ op → step own σ op = .ok σ' → Reach own G σ'

/-- in flight and known -/
structure Good (σ : State) : Prop where
  count : ∀ p, σ.log.count (.subscribed p) = σ.log.count (.confirmed p) + σ.conf.count p + σ.ext.count p
  att : ∀ p, p ∈ σ.conf ∨ .confirmed p ∈ σ.log → σ.attached p = true ∨ .dropped p ∈ σ.log
  tr : σ.st = .initializing → ∀ p, σ.conf.count p + σ.ext.count p ≤ σ.tracked.count p
  past : ∀ l1 l2, σ.log = l1 ++ .replied :: l2 → ∀ p, l2.count (.subscribed p) = l2.count (.confirmed p)

theorem past_cons {e : Ev} {l : List Ev} (he : e ≠ .replied)
    (h : ∀ l1 l2, l = l1 ++ .replied :: l2 → ∀ p, l2.count (.subscribed p) = l2.count (.confirmed p)) :
    ∀ l1 l2, e :: l = l1 ++ .replied :: l2 → ∀ p, l2.count (.subscribed p) = l2.count (.confirmed p) := by
  intro l1 l2 h1
  cases l1 with
  | nil => simp at h1; exact absurd h1.1 he
  | cons x l1 => simp at h1; exact h l1 l2 h1.2

/-- what `subscribe_actor` leaves alone -/
structure Same (σ σ' : State) : Prop where
  st : σ'.st = σ.st
  req : σ'.req = σ.req
  inits : σ'.inits = σ.inits
  subs : σ'.subs = σ.subs
  starts : σ'.starts = σ.starts
  configured : σ'.configured = σ.configured
  log : ∃ l, σ'.log = l ++ σ.log ∧ .replied ∉ l ∧ .started ∉ l

theorem subscribe_good {p : Nat} (hg : Good σ) (h : subscribe own p σ = .ok σ') : Good σ' ∧ Same σ σ' := by
  obtain ⟨h1, h2, h3, h4⟩ := hg
  unfold subscribe at h
  split at h
  · cases h
  · split at h
    · cases h
      refine ⟨⟨?_, ?_, ?_, ?_⟩, ⟨rfl, rfl, rfl, rfl, rfl, rfl, [.attached p, .subscribed p], by simp⟩⟩
      · intro q
        have := h1 q
        grind
      · intro q hq
        have := h2 q
        simp only [upd]
        grind
      · intro hs q
        have := h3 hs q
        grind
      · exact past_cons (by simp) (past_cons (by simp) h4)
    · cases h
      refine ⟨⟨?_, ?_, ?_, ?_⟩, ⟨rfl, rfl, rfl, rfl, rfl, rfl, [.subscribed p], by simp⟩⟩
      · intro q
        have := h1 q
        grind
      · intro q hq
        have := h2 q
        grind
      · intro hs q
        have := h3 hs q
        grind
      · exact past_cons (by simp) h4

theorem Same.refl (σ : State) : Same σ σ := ⟨rfl, rfl, rfl, rfl, rfl, rfl, [], by simp⟩

theorem Same.trans {σ'' : State} (h : Same σ σ') (h' : Same σ' σ'') : Same σ σ'' := by
  obtain ⟨a1, a2, a3, a4, a5, a6, l, a7, a8, a9⟩ := h
  obtain ⟨b1, b2, b3, b4, b5, b6, l', b7, b8, b9⟩ := h'
  exact ⟨by rw [b1, a1], by rw [b2, a2], by rw [b3, a3], by rw [b4, a4], by rw [b5, a5], by rw [b6, a6], l' ++ l, by simp [b7, a7], by simp [a8, b8], by simp [a9, b9]⟩

theorem subscribeAll_good (l : List Nat) : ∀ {σ σ' : State}, Good σ → subscribeAll own l σ = .ok σ' → Good σ' ∧ Same σ σ' := by
  induction l with
  | nil => intro σ σ' hg h; simp only [subscribeAll] at h; cases h; exact ⟨hg, .refl σ⟩
  | cons p l ih =>
    intro σ σ' hg h
    simp only [subscribeAll] at h
    cases h1 : subscribe own p σ with
    | error e => rw [h1] at h; cases h
    | ok σ1 =>
      rw [h1] at h
      obtain ⟨g1, s1⟩ := subscribe_good hg h1
      obtain ⟨g2, s2⟩ := ih g1 h
      exact ⟨g2, s1.trans s2⟩

/-- the positive answer: everything has been confirmed -/
theorem Good.reply (hg : Good σ) (hs : σ.st = .initializing) (ht : σ.tracked = []) :
    Good { σ with st := .initialized, req := false, log := .replied :: σ.log } := by
  obtain ⟨h1, h2, h3, h4⟩ := hg
  have h0 : ∀ p, σ.conf.count p = 0 ∧ σ.ext.count p = 0 := by
    intro p
    have := h3 hs p
    rw [ht] at this
    simp only [List.count_nil] at this
    omega
  refine ⟨?_, ?_, ?_, ?_⟩
  · intro p; simpa using h1 p
  · intro p hp; simpa using h2 p (by simpa using hp)
  · intro h; cases h
  · intro l1 l2 h p
    cases l1 with
    | nil =>
      simp at h
      subst h
      have := h1 p
      have := h0 p
      omega
    | cons x l1 => simp at h; exact h4 l1 l2 h.2 p

/-- what `init_continue` may change -/
structure Cont (own : Cfg) (σ σ' : State) : Prop where
  good : Good σ'
  starts : σ'.starts = σ.starts
  /-- either nothing but the bookkeeping .. -/
  goes : (σ'.st = σ.st ∧ σ'.req = σ.req ∧ σ'.inits = σ.inits ∧ ∃ l, σ'.log = l ++ σ.log ∧ .replied ∉ l ∧ .started ∉ l) ∨
    /- .. or the answer -/
    (σ'.st = .initialized ∧ σ'.req = false ∧ σ'.tracked = [] ∧ σ'.configured = true ∧ σ'.conf = [] ∧ σ'.ext = [] ∧
      ∃ l, σ'.log = .replied :: (l ++ σ.log) ∧ .replied ∉ l ∧ .started ∉ l)

theorem empty_of_count (l : List Nat) (h : ∀ p, l.count p = 0) : l = [] := by
  cases l with
  | nil => rfl
  | cons x l => have := h x; simp at this

theorem good_empty (hg : Good σ) (hs : σ.st = .initializing) (ht : σ.tracked = []) : σ.conf = [] ∧ σ.ext = [] := by
  have h0 : ∀ p, σ.conf.count p = 0 ∧ σ.ext.count p = 0 := by
    intro p
    have := hg.tr hs p
    rw [ht] at this
    simp only [List.count_nil] at this
    omega
  exact ⟨empty_of_count _ fun p => (h0 p).1, empty_of_count _ fun p => (h0 p).2⟩

theorem Good.flags (hg : Good σ) (a b c d : Bool) : Good { σ with configured := a, inits := b, subs := c, req := d } := ⟨hg.1, hg.2, hg.3, hg.4⟩

theorem initContinue_cont {v : Vote} (hl : v.behind = [] ∧ v.after = true) (hi : σ.inits = true) (hg : Good σ) (h : initContinue own v σ = .ok σ') :
    Cont own σ σ' := by
  unfold initContinue at h
  split at h
  · cases h
  rename_i hst
  have hs : σ.st = .initializing := by grind
  cases h1 : subscribeAll own v.front σ with
  | error e => rw [h1] at h; cases h
  | ok σ1 =>
    rw [h1] at h
    obtain ⟨g1, s1⟩ := subscribeAll_good _ hg h1
    have hs1 : σ1.st = .initializing := by rw [s1.st, hs]
    simp only at h
    split at h
    · unfold fromStarter at h
      rw [if_pos (by rw [s1.inits, hi])] at h
      unfold handleInit at h
      cases hc : σ1.configured with
      | true =>
        rw [if_pos hc] at h
        cases ht : σ1.tracked.isEmpty with
        | true =>
          simp only [ht, hl.1, hl.2, subscribeAll, if_true] at h
          cases h
          have ht' : σ1.tracked = [] := by simpa using ht
          obtain ⟨e1, e2⟩ := good_empty g1 hs1 ht'
          obtain ⟨l, hl1, hl2⟩ := s1.log
          exact ⟨(g1.flags σ1.configured false σ1.subs σ1.req).reply hs1 ht', s1.starts, .inr ⟨rfl, rfl, ht', hc, e1, e2, l, by simp [hl1], hl2⟩⟩
        | false =>
          simp only [ht] at h
          cases h
          exact ⟨g1, s1.starts, .inl ⟨s1.st, s1.req, s1.inits, s1.log⟩⟩
      | false =>
        rw [if_neg (by simp [hc])] at h
        cases h2 : subscribeAll own v.cfg { σ1 with configured := true } with
        | error e => rw [h2] at h; cases h
        | ok σ2 =>
          rw [h2] at h
          obtain ⟨g2, s2⟩ := subscribeAll_good _ (g1.flags true σ1.inits σ1.subs σ1.req) h2
          have s2' : Same σ { σ2 with configured := σ1.configured } := by
            refine s1.trans ⟨s2.st, s2.req, s2.inits, s2.subs, s2.starts, rfl, s2.log⟩
          have hs2 : σ2.st = .initializing := by rw [s2.st]; exact hs1
          cases ht : σ2.tracked.isEmpty with
          | true =>
            simp only [ht, hl.1, hl.2, subscribeAll, if_true] at h
            cases h
            have ht' : σ2.tracked = [] := by simpa using ht
            obtain ⟨e1, e2⟩ := good_empty g2 hs2 ht'
            obtain ⟨l, hl1, hl2⟩ := s2'.log
            exact ⟨(g2.flags σ2.configured false false σ2.req).reply hs2 ht', s2'.starts, .inr ⟨rfl, rfl, ht', by rw [s2.configured], e1, e2, l, by simpa using hl1, hl2⟩⟩
          | false =>
            simp [ht] at h
            cases h
            exact ⟨g2, s2'.starts, .inl ⟨s2'.st, s2'.req, s2'.inits, s2'.log⟩⟩
    · cases h
      exact ⟨g1, s1.starts, .inl ⟨s1.st, s1.req, s1.inits, s1.log⟩⟩

/-- the invariant of executions in which the starter is the last plugin -/
structure Inv (σ : State) : Prop where
  good : Good σ
  inits : σ.st = .initializing → σ.inits = true
  fresh : σ.st = .initializing → .replied ∉ σ.log
  once : σ.log.count .replied ≤ 1
  replied : σ.st = .initialized → .replied ∈ σ.log
  starts : σ.log.count .started ≤ 1 ∧ (σ.starts = true → .started ∉ σ.log)
  order : ∀ l1 l2, σ.log = l1 ++ .started :: l2 → .replied ∈ l2

theorem inv_init : Inv State.init := by
  constructor
  · constructor <;> simp [State.init]
  all_goals simp [State.init]

theorem order_append {l l' : List Ev} (hl : .started ∉ l) (h : ∀ l1 l2, l' = l1 ++ .started :: l2 → .replied ∈ l2) :
    ∀ l1 l2, l ++ l' = l1 ++ .started :: l2 → .replied ∈ l2 := by
  induction l with
  | nil => simpa using h
  | cons e l ih =>
    intro l1 l2 h1
    simp only [List.mem_cons, not_or] at hl
    cases l1 with
    | nil => simp at h1; exact absurd h1.1.symm hl.1
    | cons x l1 => simp at h1; exact ih hl.2 l1 l2 h1.2

theorem Inv.cont (hi : Inv σ) (hs : σ.st = .initializing) (h : Cont own σ σ') : Inv σ' := by
  obtain ⟨h1, h2, h3, h4, h5, h6, h7⟩ := hi
  obtain ⟨g, g1, g2⟩ := h
  rcases g2 with ⟨a1, a2, a3, l, a4, a5, a6⟩ | ⟨a1, a2, a3, a4, a7, a8, l, a9, a5, a6⟩
  · refine ⟨g, ?_, ?_, ?_, ?_, ?_, ?_⟩
    · rw [a1, a3]; exact h2
    · rw [a1, a4]; intro h; simp [a5, h3 h]
    · rw [a4, List.count_append, List.count_eq_zero_of_not_mem a5]; omega
    · rw [a1, hs]; intro h; cases h
    · rw [a4, List.count_append, List.count_eq_zero_of_not_mem a6, g1]
      exact ⟨by omega, fun h => by simp [a6, h6.2 h]⟩
    · rw [a4]; exact order_append a6 h7
  · refine ⟨g, ?_, ?_, ?_, ?_, ?_, ?_⟩
    · rw [a1]; intro h; cases h
    · rw [a1]; intro h; cases h
    · rw [a9, List.count_cons, List.count_append, List.count_eq_zero_of_not_mem a5, List.count_eq_zero_of_not_mem (h3 hs)]; simp
    · intro _; simp [a9]
    · rw [a9, List.count_cons, List.count_append, List.count_eq_zero_of_not_mem a6, g1]
      exact ⟨by simpa using h6.1, fun h => by simp [a6, h6.2 h]⟩
    · rw [a9]
      have := order_append (l := .replied :: l) (by simp [a6]) h7
      simpa using this

theorem Inv.flags (hi : Inv σ) (a b c : Bool) : Inv { σ with configured := a, subs := b, req := c } :=
  ⟨⟨hi.1.1, hi.1.2, hi.1.3, hi.1.4⟩, hi.2, hi.3, hi.4, hi.5, hi.6, hi.7⟩

theorem Inv.asks (hi : Inv σ) (a b c d : Bool) : Inv { σ with configured := a, subs := b, req := c, asked := d } :=
  ⟨⟨hi.1.1, hi.1.2, hi.1.3, hi.1.4⟩, hi.2, hi.3, hi.4, hi.5, hi.6, hi.7⟩

/-- one event more in the log -/
theorem Inv.log (hi : Inv σ) {e : Ev} (he : e ≠ .replied) (he' : e ≠ .started) (hg : Good { σ with log := e :: σ.log }) :
    Inv { σ with log := e :: σ.log } := by
  obtain ⟨h1, h2, h3, h4, h5, h6, h7⟩ := hi
  refine ⟨hg, h2, ?_, ?_, ?_, ?_, ?_⟩
  · intro h; simpa [Ne.symm he] using h3 h
  · simpa [List.count_cons, he] using h4
  · intro h; simpa [Ne.symm he] using h5 h
  · simpa [List.count_cons, he', Ne.symm he'] using h6
  · have := order_append (l := [e]) (by simp [Ne.symm he']) h7
    simpa using this

/-- `Inv` without `Good` depends on a few fields only -/
theorem Inv.of (hi : Inv σ) (hg : Good σ') (h1 : σ'.st = σ.st) (h2 : σ'.inits = σ.inits) (h3 : σ'.starts = σ.starts)
    (h4 : ∃ l, σ'.log = l ++ σ.log ∧ .replied ∉ l ∧ .started ∉ l) : Inv σ' := by
  obtain ⟨k1, k2, k3, k4, k5, k6, k7⟩ := hi
  obtain ⟨l, e, e1, e2⟩ := h4
  refine ⟨hg, ?_, ?_, ?_, ?_, ?_, ?_⟩
  · rw [h1, h2]; exact k2
  · rw [h1, e]; intro h; simp [e1, k3 h]
  · rw [e, List.count_append, List.count_eq_zero_of_not_mem e1]; omega
  · rw [h1, e]; intro h; simp [k5 h]
  · rw [e, List.count_append, List.count_eq_zero_of_not_mem e2, h3]
    exact ⟨by omega, fun h => by simp [e2, k6.2 h]⟩
  · rw [e]; exact order_append e2 k7

/-- a confirmation arrives, and is struck off the list or not -/
theorem good_confirm {p : Nat} (hg : Good σ) (hp : p ∈ σ.conf) :
    Good { σ with conf := σ.conf.erase p, log := .confirmed p :: σ.log, tracked := σ.tracked.erase p } ∧
    Good { σ with conf := σ.conf.erase p, log := .confirmed p :: σ.log } := by
  obtain ⟨h1, h2, h3, h4⟩ := hg
  have hc : ∀ q, (σ.conf.erase p).count q + (if p = q then 1 else 0) = σ.conf.count q := by
    intro q
    rw [List.count_erase]
    by_cases h : p = q
    · subst h; have := List.count_pos_iff.2 hp; simp; omega
    · simp [h]
  have ht : ∀ q, σ.tracked.count q ≤ (σ.tracked.erase p).count q + (if p = q then 1 else 0) := by
    intro q
    rw [List.count_erase]
    by_cases h : p = q
    · subst h; simp; omega
    · simp [h]
  have e1 : ∀ q, (Ev.confirmed p :: σ.log).count (.subscribed q) = (Ev.confirmed p :: σ.log).count (.confirmed q) + (σ.conf.erase p).count q + σ.ext.count q := by
    intro q
    have := h1 q; have := hc q
    by_cases h : p = q
    · subst h; simp [List.count_cons] at *; omega
    · simp [List.count_cons, h] at *; omega
  have e2 : ∀ q, q ∈ σ.conf.erase p ∨ .confirmed q ∈ Ev.confirmed p :: σ.log → σ.attached q = true ∨ .dropped q ∈ Ev.confirmed p :: σ.log := by
    intro q hq
    have : q ∈ σ.conf ∨ .confirmed q ∈ σ.log := by
      rcases hq with hq | hq
      · exact .inl (List.mem_of_mem_erase hq)
      · simp at hq; rcases hq with rfl | hq
        · exact .inl hp
        · exact .inr hq
    simpa using h2 q this
  have e3 : σ.st = .initializing → ∀ q, (σ.conf.erase p).count q + σ.ext.count q ≤ (σ.tracked.erase p).count q := by
    intro hs q
    have := h3 hs q; have := hc q; have := ht q
    omega
  refine ⟨⟨e1, e2, e3, past_cons (by simp) h4⟩, ⟨e1, e2, ?_, past_cons (by simp) h4⟩⟩
  intro hs q
  have := h3 hs q; have := hc q
  show (σ.conf.erase p).count q + σ.ext.count q ≤ σ.tracked.count q
  omega

theorem Inv.step {op : Op} (hi : Inv σ) (hl : Last op) (h : step own σ op = .ok σ') : Inv σ' := by
  cases op with
  | init v =>
    simp only [Starter.step] at h
    split at h
    · cases h
    split at h
    · rename_i hs
      have h0 : Inv { σ with req := true, asked := true } := hi.asks σ.configured σ.subs true true
      exact h0.cont hs (initContinue_cont (hl v rfl) (hi.inits hs) h0.good h)
    · cases h
      exact hi.asks σ.configured σ.subs true true
  | attach p =>
    simp only [Starter.step] at h
    split at h
    · rename_i hp
      cases h
      refine hi.of ?_ rfl rfl rfl ⟨[.attached p], by simp⟩
      obtain ⟨h1, h2, h3, h4⟩ := hi.good
      have hc : ∀ q, (σ.ext.erase p).count q + (if p = q then 1 else 0) = σ.ext.count q := by
        intro q
        rw [List.count_erase]
        by_cases h : p = q
        · subst h; have := List.count_pos_iff.2 hp; simp; omega
        · simp [h]
      refine ⟨?_, ?_, ?_, past_cons (by simp) h4⟩
      · intro q; have := h1 q; have := hc q
        by_cases h : p = q
        · subst h; simp [List.count_cons] at *; omega
        · simp [List.count_cons, h] at *; omega
      · intro q hq; have := h2 q; simp only [upd]; grind
      · intro hs q
        have := h3 hs q; have := hc q
        by_cases h : p = q
        · subst h; simp at *; omega
        · simp [h] at *; omega
    · cases h
  | confirm p v =>
    simp only [Starter.step] at h
    split at h
    · rename_i hp
      obtain ⟨g1, g2⟩ := good_confirm hi.good hp
      unfold onConfirm at h
      split at h
      · have i1 : Inv { σ with conf := σ.conf.erase p, log := .confirmed p :: σ.log, tracked := σ.tracked.erase p } :=
          hi.of g1 rfl rfl rfl ⟨[.confirmed p], by simp⟩
        simp only at h
        split at h
        · rename_i hc
          split at h
          · cases h
          · rename_i σ2 h2
            cases h
            have := i1.cont hc.2.2 (initContinue_cont (hl v rfl) (i1.inits hc.2.2) i1.good h2)
            exact this.flags σ2.configured false σ2.req
        · cases h
          exact i1
      · cases h
        exact hi.of g2 rfl rfl rfl ⟨[.confirmed p], by simp⟩
    · cases h
  | poll v =>
    simp only [Starter.step] at h
    split at h
    · rename_i hs
      exact hi.cont hs.1 (initContinue_cont (hl v rfl) (hi.inits hs.1) hi.good h)
    · cases h
  | subscribe p =>
    simp only [Starter.step] at h
    obtain ⟨g1, s1⟩ := subscribe_good hi.good h
    exact hi.of g1 s1.st s1.inits s1.starts s1.log
  | drop p =>
    simp only [Starter.step] at h
    split at h
    · cases h
      refine hi.of ?_ rfl rfl rfl ⟨[.dropped p], by simp⟩
      obtain ⟨h1, h2, h3, h4⟩ := hi.good
      refine ⟨?_, ?_, h3, past_cons (by simp) h4⟩
      · intro q; simpa [List.count_cons] using h1 q
      · intro q hq; have := h2 q; simp only [upd]; grind
    · cases h
  | fail =>
    simp only [Starter.step] at h
    split at h
    · cases h; exact hi.flags σ.configured σ.subs false
    · cases h
  | shut =>
    simp only [Starter.step] at h
    split at h
    · cases h
      obtain ⟨⟨k1, k2, k3, k4⟩, h2, h3, h4, h5, h6, h7⟩ := hi
      exact ⟨⟨k1, k2, (fun h => by cases h), k4⟩, (fun h => by cases h), (fun h => by cases h), h4, (fun h => by cases h), h6, h7⟩
    · cases h
  | deactivate =>
    simp only [Starter.step] at h
    split at h
    · rename_i hs
      cases h
      refine hi.of ⟨hi.good.count, hi.good.att, ?_, hi.good.past⟩ rfl rfl rfl ⟨[], by simp⟩
      intro h; rw [show σ.st = _ from h] at hs; cases hs
    · cases h
  | start =>
    simp only [Starter.step] at h
    split at h
    · rename_i hs
      cases h
      obtain ⟨⟨k1, k2, k3, k4⟩, h2, h3, h4, h5, h6, h7⟩ := hi
      cases hb : σ.starts with
      | true =>
        simp only [hb, if_true]
        refine ⟨⟨?_, ?_, (fun h => by cases h), past_cons (by simp) k4⟩, (fun h => by cases h), (fun h => by cases h), ?_, (fun h => by cases h), ?_, ?_⟩
        · intro q; simpa [List.count_cons] using k1 q
        · intro q hq; simpa using k2 q (by simpa using hq)
        · simpa [List.count_cons] using h4
        · refine ⟨?_, by simp⟩
          rw [List.count_cons, List.count_eq_zero_of_not_mem (h6.2 hb)]; simp
        · intro l1 l2 h
          cases l1 with
          | nil => simp at h; rw [← h]; exact h5 hs
          | cons x l1 => simp at h; exact h7 l1 l2 h.2
      | false =>
        exact ⟨⟨k1, k2, k3, k4⟩, h2, h3, h4, h5, ⟨h6.1, by simp⟩, h7⟩
    · cases h; exact hi

theorem reach_inv (h : Reach own (fun _ op => Last op) σ) : Inv σ := by
  induction h with
  | init => exact inv_init
  | step _ hl h ih => exact ih.step hl h

/-- **C57: the initialization waits for the handlers.** The starter is the last plugin. When the actor becomes INITIALIZED, every handler subscribed by
`subscribe_actor` so far has been confirmed, and the owner of its address delivers to it, unless it was unsubscribed. -/
theorem C57_awaited {op : Op} (hr : Reach own (fun _ op => Last op) σ) (hl : Last op) (h : step own σ op = .ok σ')
    (h1 : σ.st ≠ .initialized) (h2 : σ'.st = .initialized) (p : Nat) (hp : .subscribed p ∈ σ'.log) :
    σ'.log.count (.subscribed p) = σ'.log.count (.confirmed p) ∧ (σ'.attached p = true ∨ .dropped p ∈ σ'.log) := by
  have hi := reach_inv hr
  have hi' := hi.step hl h
  have key : σ'.conf = [] ∧ σ'.ext = [] := by
    have cont : ∀ {σ0 σ1 : State}, σ0.st = .initializing → σ1.st = .initialized → Cont own σ0 σ1 → σ1.conf = [] ∧ σ1.ext = [] := by
      intro σ0 σ1 a b c
      rcases c.goes with g | g
      · rw [g.1, a] at b; cases b
      · exact ⟨g.2.2.2.2.1, g.2.2.2.2.2.1⟩
    cases op with
    | init v =>
      simp only [Starter.step] at h
      split at h
      · cases h
      split at h
      · rename_i hs
        have h0 : Inv { σ with req := true, asked := true } := hi.asks σ.configured σ.subs true true
        exact cont (σ0 := { σ with req := true, asked := true }) hs h2 (initContinue_cont (hl v rfl) (h0.inits hs) h0.good h)
      · cases h; exact absurd h2 h1
    | poll v =>
      simp only [Starter.step] at h
      split at h
      · rename_i hs
        exact cont hs.1 h2 (initContinue_cont (hl v rfl) (hi.inits hs.1) hi.good h)
      · cases h
    | confirm q v =>
      simp only [Starter.step] at h
      split at h
      · rename_i hq
        obtain ⟨g1, g2⟩ := good_confirm hi.good hq
        unfold onConfirm at h
        split at h
        · simp only at h
          split at h
          · rename_i hc
            split at h
            · cases h
            · rename_i σ2 h3
              cases h
              exact cont (σ0 := { σ with conf := σ.conf.erase q, log := .confirmed q :: σ.log, tracked := σ.tracked.erase q }) (σ1 := σ2) hc.2.2 h2
                (initContinue_cont (hl v rfl) (hi.inits hc.2.2) g1 h3)
          · cases h; exact absurd h2 h1
        · cases h; exact absurd h2 h1
      · cases h
    | attach q => simp only [Starter.step] at h; split at h <;> cases h; exact absurd h2 h1
    | subscribe q =>
      simp only [Starter.step] at h
      obtain ⟨_, s1⟩ := subscribe_good hi.good h
      rw [s1.st] at h2; exact absurd h2 h1
    | drop q => simp only [Starter.step] at h; split at h <;> cases h; exact absurd h2 h1
    | fail => simp only [Starter.step] at h; split at h <;> cases h; exact absurd h2 h1
    | shut => simp only [Starter.step] at h; split at h <;> cases h; cases h2
    | deactivate => simp only [Starter.step] at h; split at h <;> cases h; exact absurd h2 h1
    | start =>
      simp only [Starter.step] at h
      split at h
      · rename_i hs; exact absurd hs h1
      · cases h; exact absurd h2 h1
  have hc := hi'.good.count p
  rw [key.1, key.2] at hc
  simp only [List.count_nil, Nat.add_zero] at hc
  refine ⟨hc, hi'.good.att p (.inr ?_)⟩
  have := List.count_pos_iff.2 hp
  exact List.count_pos_iff.1 (by omega)

/-- **C57: the answer comes once and after the confirmations, `on_start` once and after the answer.** -/
theorem C57_order (hr : Reach own (fun _ op => Last op) σ) :
    σ.log.count .replied ≤ 1 ∧ σ.log.count .started ≤ 1 ∧
    (∀ l1 l2, σ.log = l1 ++ .replied :: l2 → ∀ p, l2.count (.subscribed p) = l2.count (.confirmed p)) ∧
    (∀ l1 l2, σ.log = l1 ++ .started :: l2 → .replied ∈ l2) :=
  have hi := reach_inv hr
  ⟨hi.once, hi.starts.1, hi.good.past, hi.order⟩

end Verif.Starter
