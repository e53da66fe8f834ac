import Verif.Link.View
/-!
# Every operation is a sequence of small steps for every pair
-/

namespace Verif.Link
open Verif

/-- for every pair, `σ'` is reached from `σ` by small steps -/
def Sim (φ : Fl) (σ σ' : State) : Prop := ∀ x y, VSteps φ (view σ x y) (view σ' x y)

variable {φ : Fl}

theorem Sim.refl (σ : State) : Sim φ σ σ := fun _ _ => .refl _
theorem Sim.trans {a b c : State} (h : Sim φ a b) (h2 : Sim φ b c) : Sim φ a c := fun x y => (h x y).trans (h2 x y)

theorem mod_act (σ : State) (a b : Nat) (f : Actor → Actor) : (σ.mod a f).act b = if b = a then f (σ.act a) else σ.act b := by
  simp [State.mod, upd]

theorem mod_act_self (σ : State) (a : Nat) (f : Actor → Actor) : (σ.mod a f).act a = f (σ.act a) := by simp [mod_act]

/-- what the views see of an actor -/
def Actor.same (a b : Actor) : Prop :=
  a.clients = b.clients ∧ a.servers = b.servers ∧ a.unlinkQ = b.unlinkQ ∧ a.kept = b.kept ∧ a.st = b.st ∧ a.rClient = b.rClient ∧
    a.closed = b.closed ∧ a.deafC = b.deafC ∧ a.deafS = b.deafS ∧ a.asked = b.asked ∧ a.initReq = b.initReq ∧ a.inits = b.inits ∧
    a.rInit = b.rInit

theorem view_mod_same {σ : State} {a : Nat} {f : Actor → Actor} (h : (f (σ.act a)).same (σ.act a)) (x y : Nat) :
    view (σ.mod a f) x y = view σ x y := by
  have e : ∀ b, ((σ.mod a f).act b).same (σ.act b) := by
    intro b
    rw [mod_act]
    split
    · rename_i hb; subst hb; exact h
    · simp [Actor.same]
  obtain ⟨h1, _, _, _, h5, _, h7, _, h9, _⟩ := e y
  obtain ⟨_, g2, g3, g4, g5, g6, g7, g8, _, g9, g10, g11, g12⟩ := e x
  simp only [view, h1, h5, h7, h9, g2, g3, g4, g5, g6, g7, g8, g9, g10, g11, g12]
  rfl

theorem sim_mod_same {σ : State} {a : Nat} {f : Actor → Actor} (h : (f (σ.act a)).same (σ.act a)) : Sim φ σ (σ.mod a f) := by
  intro x y
  rw [view_mod_same h]
  exact .refl _

theorem VSteps.to {v w w' : View} (h : VStep φ v w) (e : w' = w) : VSteps φ v w' := e ▸ .one h

theorem VSteps.of_eq {v w : View} (e : w = v) : VSteps φ v w := e ▸ .refl _

/-- reduces a claim about a view after a change of actors and channels -/
macro "vw" : tactic => `(tactic| simp_all [view, State.mod, upd, upd2, AMap.find_set, AMap.find_erase, keptOf])

theorem sim_link {c s : Nat} {op : Bool} {σ σ' : State} (h : link c s op σ = .ok σ') (hs : (σ.act c).st.rank ≤ 4)
    (hu : φ.rl = true → (σ.act c).unlinkQ.find s = none) (hia : (σ.act c).asked = true)
    (hir : (σ.act c).st = .initializing → (σ.act c).initReq = true) : Sim φ σ σ' := by
  unfold link at h
  split at h
  case isFalse => simp at h
  case isTrue hn =>
    injection h with h
    subst h
    intro x y
    by_cases hxy : x = c ∧ y = s
    · obtain ⟨rfl, rfl⟩ := hxy
      refine .to (.ask _ op hs hn hu hia hir) ?_
      by_cases hxy : y = x <;> vw
    · by_cases hx : x = c
      · refine .cons (.nx _ (σ.nx + 1) (Nat.le_succ _)) (.to (.riOn _) ?_)
        by_cases hy : y = c <;> vw
      · refine .to (.nx _ (σ.nx + 1) (Nat.le_succ _)) ?_
        by_cases hy : y = c <;> vw

/-- an actor after links have been asked for -/
def asks (a b : Actor) : Prop := ∃ sv ri, b = { a with servers := sv, rInit := ri }

theorem link_act {c s : Nat} {op : Bool} {σ σ' : State} (h : link c s op σ = .ok σ') :
    asks (σ.act c) (σ'.act c) ∧ ∀ x, x ≠ c → σ'.act x = σ.act x := by
  unfold link at h
  split at h
  case isFalse => simp at h
  case isTrue hn =>
    injection h with h
    subst h
    refine ⟨⟨_, _, by simp [State.mod, upd]; exact ⟨rfl, rfl⟩⟩, fun x hx => by simp [State.mod, upd, hx]⟩

theorem linkAll_act {c : Nat} : ∀ {l : List (Nat × Bool)} {σ σ' : State}, linkAll c l σ = .ok σ' →
    asks (σ.act c) (σ'.act c) ∧ ∀ x, x ≠ c → σ'.act x = σ.act x := by
  intro l
  induction l with
  | nil => intro σ σ' h; simp [linkAll] at h; subst h; exact ⟨⟨_, _, rfl⟩, fun _ _ => rfl⟩
  | cons p l ih =>
    intro σ σ' h
    obtain ⟨s, op⟩ := p
    simp only [linkAll] at h
    split at h
    · simp at h
    · rename_i σ1 h1
      obtain ⟨⟨sv, ri, e⟩, f⟩ := link_act h1
      obtain ⟨⟨sv2, ri2, e2⟩, f2⟩ := ih h
      exact ⟨⟨sv2, ri2, by rw [e2, e]⟩, fun x hx => by rw [f2 x hx, f x hx]⟩

theorem sim_linkAll {c : Nat} : ∀ {l : List (Nat × Bool)} {σ σ' : State}, linkAll c l σ = .ok σ' → (σ.act c).st.rank ≤ 4 →
    (φ.rl = true → ∀ p, p ∈ l → (σ.act c).unlinkQ.find p.1 = none) → (σ.act c).asked = true →
    ((σ.act c).st = .initializing → (σ.act c).initReq = true) → Sim φ σ σ' := by
  intro l
  induction l with
  | nil => intro σ σ' h _ _ _ _; simp [linkAll] at h; subst h; exact .refl _
  | cons p l ih =>
    intro σ σ' h hs hu hia hir
    obtain ⟨s, op⟩ := p
    simp only [linkAll] at h
    split at h
    · simp at h
    · rename_i σ1 h1
      obtain ⟨⟨sv, ri, e⟩, f⟩ := link_act h1
      refine (sim_link h1 hs (fun hr => hu hr (s, op) (by simp)) hia hir).trans (ih h ?_ ?_ ?_ ?_)
      · rw [e]; exact hs
      · intro hr p hp
        rw [e]
        exact hu hr p (by simp [hp])
      · rw [e]; exact hia
      · rw [e]; exact hir

/-- the state of an actor goes forward -/
theorem sim_st {a : Nat} {σ : State} {f : Actor → Actor} (h1 : (σ.act a).st.rank ≤ (f (σ.act a)).st.rank)
    (h2 : (f (σ.act a)).st ≠ .operational) (h2' : (f (σ.act a)).st ≠ .shutDown) (h2'' : 5 ≤ (f (σ.act a)).st.rank) (h3 : ({ f (σ.act a) with st := (σ.act a).st } : Actor).same (σ.act a)) :
    Sim φ σ (σ.mod a f) := by
  intro x y
  refine .to (.st _ (if x = a then (f (σ.act a)).st else (σ.act x).st) (if y = a then (f (σ.act a)).st else (σ.act y).st) ?_ ?_ ?_ ?_ ?_ ?_) ?_
  · split
    · subst_vars; exact h1
    · exact Nat.le_refl _
  · split
    · subst_vars; exact h1
    · exact Nat.le_refl _
  · split
    · intro h; exact absurd h h2
    · intro _; rfl
  · split
    · intro h; exact absurd h h2'
    · intro _; rfl
  · split
    · intro h; exact absurd h h2'
    · intro _; rfl
  · split
    · exact .inr (.inl h2'')
    · exact .inl rfl
  · obtain ⟨e1, e2, e3, e4, _, e6, e7, e8, e9, e10, e11, e12, e13⟩ := h3
    simp only at e1 e2 e3 e4 e6 e7 e8 e9 e10 e11 e12 e13
    by_cases hx : x = a <;> by_cases hy : y = a <;> simp [view, State.mod, upd, hx, hy, e1, e2, e3, e4, e6, e7, e8, e9, e10, e11, e12, e13]

/-- only what the views see as the client's initialization changes -/
theorem sim_client {a : Nat} {σ : State} {f : Actor → Actor}
    (h : ∀ y, VSteps φ (view σ a y) { view σ a y with
        ia := (f (σ.act a)).asked
        ir := (f (σ.act a)).initReq
        ok := (f (σ.act a)).inits.contains true
        ri := (f (σ.act a)).rInit
        ni := (f (σ.act a)).inits.length })
    (h3 : ({ f (σ.act a) with asked := (σ.act a).asked, initReq := (σ.act a).initReq, inits := (σ.act a).inits,
                              rInit := (σ.act a).rInit } : Actor).same (σ.act a)) : Sim φ σ (σ.mod a f) := by
  obtain ⟨e1, e2, e3, e4, e5, e6, e7, e8, e9, -⟩ := h3
  simp only at e1 e2 e3 e4 e5 e6 e7 e8 e9
  intro x y
  by_cases hx : x = a
  · subst hx
    have : view (σ.mod x f) x y = { view σ x y with
        ia := (f (σ.act x)).asked
        ir := (f (σ.act x)).initReq
        ok := (f (σ.act x)).inits.contains true
        ri := (f (σ.act x)).rInit
        ni := (f (σ.act x)).inits.length } := by
      by_cases hy : y = x <;> simp [view, State.mod, upd, hy, e1, e2, e3, e4, e5, e6, e7, e8, e9]
    rw [this]
    exact h y
  · refine .of_eq ?_
    by_cases hy : y = a <;> simp [view, State.mod, upd, hy, hx, e1, e5, e7, e9]

theorem mod_mod (σ : State) (a : Nat) (f g : Actor → Actor) : (σ.mod a f).mod a g = σ.mod a (fun x => g (f x)) := by
  simp only [State.mod]
  congr 1
  funext j
  simp only [upd]
  split <;> simp

theorem sim_begin {a : Nat} {σ : State} (h : (σ.act a).asked = false) :
    Sim φ σ (σ.mod a (fun a => { a with initReq := true, asked := true })) :=
  sim_client (f := fun a => { a with initReq := true, asked := true }) (fun _ => .one (.begin _ h)) (by simp [Actor.same])

theorem sim_fail {a : Nat} {σ : State} (h : (σ.act a).initReq = true) :
    Sim φ σ (σ.mod a (fun a => { a with initReq := false, inits := false :: a.inits })) :=
  sim_client (f := fun a => { a with initReq := false, inits := false :: a.inits }) (fun _ => .to (.irOff _ h) (by simp [view])) (by simp [Actor.same])

theorem sim_riOff {a : Nat} {σ : State} (h : (σ.act a).rInit = true → ∀ y rid, (σ.act a).servers.find y ≠ some (.linking rid)) :
    Sim φ σ (σ.mod a (fun a => { a with rInit := false })) :=
  sim_client (f := fun a => { a with rInit := false }) (fun y => .one (.riOff _ (fun e => h e y))) (by simp [Actor.same])

theorem sim_initFinish {c : Nat} {σ : State} (h : (σ.act c).st = .initializing) (hr : (σ.act c).initReq = true)
    (hl : φ.nl = true → (σ.act c).rInit = false) : Sim φ σ (initFinish c σ) := by
  have key : ∀ y, VStep φ (view σ c y) { view σ c y with ir := false, ok := true, ni := (view σ c y).ni + 1, cs := .initialized } :=
    fun y => .succeed _ hr h hl
  intro x y
  by_cases hx : x = c <;> by_cases hy : y = c
  · subst hx; subst hy
    refine .cons (key y) (.to (.st _ .initialized .initialized ?_ ?_ ?_ ?_ ?_ ?_) ?_) <;> simp [view, h, AState.rank, initFinish, State.mod, upd, stMove]
  · subst hx
    refine .to (key y) ?_
    simp [view, initFinish, State.mod, upd, hy]
  · subst hy
    refine .to (.st _ (σ.act x).st .initialized ?_ ?_ ?_ ?_ ?_ ?_) ?_ <;> simp [view, h, AState.rank, initFinish, State.mod, upd, hx, stMove]
  · refine .of_eq ?_
    simp [view, initFinish, State.mod, upd, hx, hy]

theorem sim_initContinue {c : Nat} {o : Ora} {σ σ' : State} (h : initContinue c o σ = .ok σ')
    (hu : φ.rl = true → ∀ p, p ∈ o.late → (σ.act c).unlinkQ.find p.1 = none) (hia : (σ.act c).asked = true)
    (hl : φ.nl = true → o.late = []) : Sim φ σ σ' := by
  unfold initContinue at h
  split at h
  case isFalse => simp at h
  case isTrue hi =>
    split at h
    · injection h with h; subst h; exact .refl _
    · rename_i hnl
      split at h
      · simp at h
      · rename_i σ2 h2
        have s1 : Sim φ σ (σ.mod c (fun a => { a with rInit := false })) := by
          refine sim_riOff (fun hr y rid hf => hnl ⟨hr, ?_⟩)
          rw [List.any_eq_true]
          exact ⟨_, AMap.mem_of_find hf, rfl⟩
        have e1 : (σ.mod c (fun a => { a with rInit := false })).act c = { σ.act c with rInit := false } := mod_act_self _ _ _
        have s2 : Sim φ (σ.mod c (fun a => { a with rInit := false })) σ2 :=
          sim_linkAll h2 (by rw [e1]; simp [hi.1, AState.rank]) (fun hr p hp => by rw [e1]; exact hu hr p hp)
            (by rw [e1]; exact hia) (by rw [e1]; exact fun _ => hi.2)
        obtain ⟨⟨sv, ri, e⟩, -⟩ := linkAll_act h2
        split at h
        · injection h with h; subst h
          refine (s1.trans s2).trans (sim_initFinish ?_ ?_ ?_)
          · rw [e, e1]; exact hi.1
          · rw [e, e1]; exact hi.2
          · intro hn
            rw [hl hn] at h2
            simp [linkAll] at h2
            rw [← h2, e1]
        · injection h with h; subst h
          exact s1.trans s2

theorem find_cons {V : Type} (a k : Nat) (b : V) (l : AMap Nat V) :
    AMap.find ((a, b) :: l) k = if a = k then some b else AMap.find l k := by
  simp [AMap.find]

theorem find_filter_key {V : Type} (P : Nat → Bool) (k : Nat) : ∀ l : AMap Nat V,
    AMap.find (l.filter (fun p => P p.1)) k = if P k = true then AMap.find l k else none := by
  intro l
  induction l with
  | nil => simp
  | cons p l ih =>
    obtain ⟨a, b⟩ := p
    by_cases hp : P a = true <;> by_cases hk : a = k <;> grind [find_cons]

theorem find_map_val {V : Type} (g : V → V) (k : Nat) : ∀ l : AMap Nat V,
    AMap.find (l.map (fun p => (p.1, g p.2))) k = (AMap.find l k).map g := by
  intro l
  induction l with
  | nil => simp
  | cons p l ih =>
    obtain ⟨a, b⟩ := p
    simp only [List.map_cons, find_cons]
    split <;> simp [ih]

theorem sim_tryForget (c : Nat) (σ : State) : Sim φ σ (tryForget c σ) := by
  unfold tryForget
  split
  case isFalse => exact .refl _
  case isTrue hc =>
    intro x y
    have hf : ∀ y, AMap.find ((σ.act c).servers.filter (fun p => ((σ.act c).unlinkQ.find p.1).isNone)) y =
        if ((σ.act c).unlinkQ.find y).isNone = true then (σ.act c).servers.find y else none :=
      fun y => find_filter_key (fun k => ((σ.act c).unlinkQ.find k).isNone) y _
    by_cases hit : x = c ∧ (σ.act c).servers.find y ≠ none ∧ (σ.act c).unlinkQ.find y ≠ none
    · obtain ⟨rfl, h1, h2⟩ := hit
      obtain ⟨u, hu⟩ := Option.ne_none_iff_exists'.1 h2
      refine .to (.unlink _ u hu h1) ?_
      by_cases hy : y = x
      · subst hy; simp [view, State.mod, upd, hf, hu, h1]
      · simp [view, State.mod, upd, hf, hu, h1, hy]
    · refine .of_eq ?_
      by_cases hx : x = c
      · subst hx
        have : (σ.act x).servers.find y = none ∨ (σ.act x).unlinkQ.find y = none := by
          grind
        rcases this with h | h <;> by_cases hy : y = x
        · subst hy; simp [view, State.mod, upd, hf, h]
        · simp [view, State.mod, upd, hf, h, hy]
        · subst hy; simp [view, State.mod, upd, hf, h]
        · simp [view, State.mod, upd, hf, h, hy]
      · by_cases hy : y = c
        · subst hy; simp [view, State.mod, upd, hx]
        · simp [view, State.mod, upd, hx, hy]

/-- effect of `notify_shutdown` on a record -/
def unl (n : Nat) (p : CPh) : CPh := if p = .operational then .unlinking n else p

theorem sim_notifyShutdown {s : Nat} {σ : State} (hs : (σ.act s).st = .shuttingDown) : Sim φ σ (notifyShutdown s σ) := by
  intro x y
  have hf : ∀ k, AMap.find ((σ.act s).clients.map (fun p => (p.1, if p.2 = .operational then .unlinking σ.nx else p.2))) k =
      ((σ.act s).clients.find k).map (unl σ.nx) := fun k => find_map_val (unl σ.nx) k _
  by_cases hit : y = s ∧ (σ.act s).clients.find x = some .operational
  · obtain ⟨rfl, h1⟩ := hit
    refine .to (.notifyS _ h1 hs) ?_
    by_cases hx : x = y
    · subst hx; simp [notifyShutdown, view, State.mod, upd, hf, h1, unl]
    · simp [notifyShutdown, view, State.mod, upd, hf, h1, hx, unl]
  · refine .to (.nx _ (σ.nx + 1) (Nat.le_succ _)) ?_
    by_cases hy : y = s
    · subst hy
      have h1 : (σ.act y).clients.find x ≠ some .operational := fun h => hit ⟨rfl, h⟩
      have h2 : ((σ.act y).clients.find x).map (unl σ.nx) = (σ.act y).clients.find x := by
        cases h : (σ.act y).clients.find x with
        | none => rfl
        | some p => rw [h] at h1; simp at h1; simp [unl, h1]
      by_cases hx : x = y
      · subst hx; simp [notifyShutdown, view, State.mod, upd, hf, h1, h2]
      · simp [notifyShutdown, view, State.mod, upd, hf, h1, hx, h2]
    · by_cases hx : x = s
      · subst hx; simp [notifyShutdown, view, State.mod, upd, hy]
      · simp [notifyShutdown, view, State.mod, upd, hy, hx]

theorem sim_leaveAll {c : Nat} {σ σ' : State} (h : leaveAll c σ = .ok σ') (hs : (σ.act c).st = .shuttingDown) : Sim φ σ σ' := by
  unfold leaveAll at h
  split at h
  · simp at h
  · rename_i he
    injection h with h
    subst h
    intro x y
    by_cases hit : x = c ∧ (σ.act c).servers.find y ≠ none
    · obtain ⟨rfl, h1⟩ := hit
      refine .to (.leave _ h1 hs ?_) ?_
      · intro rid hr
        have hm := AMap.mem_of_find hr
        simp only [List.any_eq_true, not_exists, not_and] at he
        have := he _ hm
        simpa [expired, view, show AMap.find (σ.act x).servers y = some (.linking rid) from hr] using this
      · obtain ⟨p, hp⟩ := Option.ne_none_iff_exists'.1 h1
        by_cases hy : y = x
        · subst hy; cases p <;> simp [view, State.mod, upd, hp, leaveL]
        · cases p <;> simp [view, State.mod, upd, hp, hy, leaveL]
    · refine .of_eq ?_
      by_cases hx : x = c
      · subst hx
        have h1 : (σ.act x).servers.find y = none := by
          cases h : (σ.act x).servers.find y with
          | none => rfl
          | some p => exact absurd ⟨rfl, by simp [h]⟩ hit
        by_cases hy : y = x
        · subst hy; simp [view, State.mod, upd, h1]
        · simp [view, State.mod, upd, h1, hy]
      · by_cases hy : y = c
        · subst hy; simp [view, State.mod, upd, hx]
        · simp [view, State.mod, upd, hx, hy]

theorem tryForget_act (c : Nat) (σ : State) :
    (∃ sv, (tryForget c σ).act c = { σ.act c with servers := sv }) ∧ ∀ x, x ≠ c → (tryForget c σ).act x = σ.act x := by
  unfold tryForget
  split
  · exact ⟨⟨_, by simp [State.mod, upd]; rfl⟩, fun x hx => by simp [State.mod, upd, hx]⟩
  · exact ⟨⟨_, rfl⟩, fun _ _ => rfl⟩

theorem notifyShutdown_act (s : Nat) (σ : State) :
    (notifyShutdown s σ).act s =
      { σ.act s with clients := (σ.act s).clients.map (fun p => (p.1, if p.2 = .operational then .unlinking σ.nx else p.2)) } ∧
    ∀ x, x ≠ s → (notifyShutdown s σ).act x = σ.act x := by
  unfold notifyShutdown
  exact ⟨by simp [State.mod, upd], fun x hx => by simp [State.mod, upd, hx]⟩

theorem leaveAll_act {c : Nat} {σ σ' : State} (h : leaveAll c σ = .ok σ') :
    σ'.act c = { σ.act c with servers := [] } ∧ ∀ x, x ≠ c → σ'.act x = σ.act x := by
  unfold leaveAll at h
  split at h
  · simp at h
  · injection h with h
    subst h
    exact ⟨by simp [State.mod, upd], fun x hx => by simp [State.mod, upd, hx]⟩

/-- what the vote of the link client changes of its actor -/
def votes (a b : Actor) : Prop := ∃ sv cl, b = { a with servers := sv, clients := cl }

theorem clientVote_act {c : Nat} {σ σ' : State} {b : Bool} (h : clientVote c σ = .ok (σ', b)) :
    votes (σ.act c) (σ'.act c) ∧ (b = true → (σ'.act c).servers = []) ∧ ∀ x, x ≠ c → σ'.act x = σ.act x := by
  unfold clientVote at h
  split at h
  · rename_i hs
    simp at h; obtain ⟨rfl, rfl⟩ := h
    exact ⟨⟨_, _, rfl⟩, fun _ => hs, fun _ _ => rfl⟩
  · obtain ⟨⟨sv, e1⟩, f1⟩ := tryForget_act c σ
    simp only at h
    split at h
    · split at h
      · simp at h
      · rename_i σ2 h2
        simp at h; obtain ⟨rfl, rfl⟩ := h
        obtain ⟨e2, f2⟩ := leaveAll_act h2
        refine ⟨⟨[], (σ.act c).clients, ?_⟩, fun _ => ?_, fun x hx => ?_⟩
        · rw [e2, e1]
        · rw [e2]
        · rw [f2 x hx, f1 x hx]
    · obtain ⟨e2, f2⟩ := notifyShutdown_act c (tryForget c σ)
      simp at h; obtain ⟨rfl, rfl⟩ := h
      refine ⟨⟨sv, ((notifyShutdown c (tryForget c σ)).act c).clients, ?_⟩, fun h => by simpa using h, fun x hx => ?_⟩
      · rw [e2, e1]
      · rw [f2 x hx, f1 x hx]

theorem sim_clientVote {c : Nat} {σ σ' : State} {b : Bool} (h : clientVote c σ = .ok (σ', b)) (hs : (σ.act c).st = .shuttingDown) :
    Sim φ σ σ' := by
  unfold clientVote at h
  split at h
  · simp at h; obtain ⟨rfl, rfl⟩ := h
    exact .refl _
  · obtain ⟨⟨sv, e1⟩, f1⟩ := tryForget_act c σ
    have hs1 : ((tryForget c σ).act c).st = .shuttingDown := by rw [e1]; exact hs
    simp only at h
    split at h
    · split at h
      · simp at h
      · rename_i σ2 h2
        simp at h; obtain ⟨rfl, rfl⟩ := h
        exact (sim_tryForget c σ).trans (sim_leaveAll h2 hs1)
    · simp at h; obtain ⟨rfl, rfl⟩ := h
      exact (sim_tryForget c σ).trans (sim_notifyShutdown hs1)

theorem sim_serverVote {s : Nat} {σ : State} (hs : (σ.act s).st = .shuttingDown) (hr : (σ.act s).rClient = false) :
    Sim φ σ (serverVote s σ) := by
  unfold serverVote
  split
  · exact .refl _
  · simp only
    obtain ⟨e, f⟩ := notifyShutdown_act s σ
    have h1 := sim_notifyShutdown (φ := φ) hs
    split
    · rename_i hc
      refine h1.trans ?_
      have hs1 : ((notifyShutdown s σ).act s).st = .shuttingDown := by rw [e]; exact hs
      have hr1 : ((notifyShutdown s σ).act s).rClient = false := by rw [e]; exact hr
      generalize notifyShutdown s σ = τ at hc hs1 hr1 ⊢
      intro x y
      by_cases hx : x = s <;> by_cases hy : y = s
      · subst hx; subst hy
        refine .cons (.setClosedC _ (by simp [view, hr1]) (by simp [view, hs1])) ?_
        refine .to (.setClosedS _ (by simp [view, hc]) (by simp [view, hs1])) ?_
        simp [view, State.mod, upd]
      · subst hx
        refine .to (.setClosedC _ (by simp [view, hr1]) (by simp [view, hs1])) ?_
        simp [view, State.mod, upd, hy]
      · subst hy
        refine .to (.setClosedS _ (by simp [view, hc]) (by simp [view, hs1])) ?_
        simp [view, State.mod, upd, hx]
      · refine .of_eq ?_
        simp [view, State.mod, upd, hx, hy]
    · exact h1

theorem sim_setLeft {a : Nat} {σ : State} (hs : (σ.act a).st = .shuttingDown) (he : (σ.act a).servers = []) :
    Sim φ σ (σ.mod a (fun a => { a with rClient := false })) := by
  intro x y
  by_cases hx : x = a
  · subst hx
    refine .to (.setLeft _ (by simp [view, he]) (by simp [view, hs])) ?_
    by_cases hy : y = x
    · subst hy; simp [view, State.mod, upd]
    · simp [view, State.mod, upd, hy]
  · refine .of_eq ?_
    by_cases hy : y = a
    · subst hy; simp [view, State.mod, upd, hx]
    · simp [view, State.mod, upd, hy, hx]

theorem sim_shutdownContinue {a : Nat} {o : Ora} {σ σ' : State} (h : shutdownContinue a o σ = .ok σ') : Sim φ σ σ' := by
  unfold shutdownContinue at h
  split at h
  case isFalse => simp at h
  case isTrue hs =>
    split at h
    · split at h
      · split at h
        · simp at h
        · rename_i σ1 h1
          injection h with h; subst h
          obtain ⟨⟨sv, cl, e⟩, hn, -⟩ := clientVote_act h1
          have hs1 : (σ1.act a).st = .shuttingDown := by rw [e]; exact hs
          refine (sim_clientVote h1 hs).trans ((sim_setLeft hs1 (hn rfl)).trans (sim_serverVote ?_ ?_))
          · rw [mod_act_self]; exact hs1
          · rw [mod_act_self]
        · rename_i σ1 h1
          injection h with h; subst h
          exact sim_clientVote h1 hs
      · rename_i hr
        injection h with h; subst h
        exact sim_serverVote hs (by simpa using hr)
    · injection h with h; subst h
      exact .refl _

theorem sim_continueIf {a : Nat} {o : Ora} {σ σ' : State} (h : continueIf a o σ = .ok σ') : Sim φ σ σ' := by
  unfold continueIf at h
  split at h
  · exact sim_shutdownContinue h
  · injection h with h; subst h; exact .refl _

theorem find_append_one (s u k : Nat) : ∀ l : AMap Nat Nat,
    AMap.find (l ++ [(s, u)]) k = (AMap.find l k).or (if s = k then some u else none) := by
  intro l
  induction l with
  | nil => simp [find_cons]
  | cons p l ih =>
    obtain ⟨a, b⟩ := p
    simp only [List.cons_append, find_cons, ih]
    split <;> simp

theorem keptOf_append (k s u : Nat) (l : List (Nat × Nat)) : keptOf k (l ++ [(s, u)]) = keptOf k l ++ if s = k then [u] else [] := by
  simp only [keptOf, List.filter_append, List.map_append]
  by_cases h : s = k <;> simp [h]

theorem mem_keptOf {s u : Nat} {l : List (Nat × Nat)} : u ∈ keptOf s l ↔ (s, u) ∈ l := by
  simp [keptOf]

theorem keptOf_erase_ne {k s u : Nat} (h : s ≠ k) : ∀ l : List (Nat × Nat), keptOf k (l.erase (s, u)) = keptOf k l := by
  intro l
  induction l with
  | nil => rfl
  | cons p l ih =>
    by_cases e : p = (s, u)
    · subst e; simp [keptOf, h]
    · rw [List.erase_cons_tail (by simpa using e)]
      simp only [keptOf, List.filter_cons] at ih ⊢
      split <;> simp [ih]

theorem upd2_same {α : Type} (f : Nat → Nat → α) (i j : Nat) (v : α) : upd2 f i j v i j = v := by simp [upd2]
theorem upd2_ne {α : Type} {f : Nat → Nat → α} {i j a b : Nat} {v : α} (h : ¬(a = i ∧ b = j)) : upd2 f i j v a b = f a b := by
  simp [upd2, h]

/-- a step of one pair: the actors `c` (as a client) and `s` (as a server) and the channels between them change, all else stays -/
theorem sim_pair {σ σ' : State} {c s : Nat}
    (h : VSteps φ (view σ c s) (view σ' c s))
    (ho : ∀ x y, ¬(x = c ∧ y = s) → view σ' x y = view σ x y) : Sim φ σ σ' := by
  intro x y
  by_cases e : x = c ∧ y = s
  · obtain ⟨rfl, rfl⟩ := e; exact h
  · exact .of_eq (ho x y e)

theorem sim_recvUp {c s : Nat} {o : Ora} {σ σ' : State} (h : recvUp c s o σ = .ok σ') : Sim φ σ σ' := by
  unfold recvUp at h
  split at h
  · injection h with h; subst h; exact .refl _
  · rename_i m t hup
    simp only at h
    split at h
    · -- link request
      rename_i rid op
      split at h
      · rename_i hd
        injection h with h; subst h
        refine sim_pair (c := c) (s := s) (.to (.lost _ rid op t hup hd) ?_) ?_
        · simp [view, upd2]
        · intro x y hxy; have hyx : ¬(y = s ∧ x = c) := fun h => hxy ⟨h.2, h.1⟩; simp [view, upd2, hxy]
      · injection h with h; subst h
        unfold onLinkReq
        simp only
        split
        · rename_i hc
          refine sim_pair (c := c) (s := s) (.to (.refuse _ rid op t hup hc) ?_) ?_
          · simp [view, upd2]
          · intro x y hxy; have hyx : ¬(y = s ∧ x = c) := fun h => hxy ⟨h.2, h.1⟩; simp [view, upd2, hxy, hyx]
        · rename_i hc
          simp only [not_or, Nat.not_lt, ne_eq, Decidable.not_not] at hc
          obtain ⟨hc1, hc2⟩ := hc
          split
          · rename_i hq
            obtain ⟨rfl, hq⟩ := hq
            refine sim_pair (c := c) (s := s) (.to (.queue _ rid t hup hq hc2) ?_) ?_
            · by_cases e : c = s <;> simp [view, upd2, upd, State.mod, e]
            · intro x y hxy
              by_cases hy : y = s <;> by_cases hx : x = s <;> simp_all [view, upd2, upd, State.mod, AMap.find_set]
          · rename_i hq
            refine sim_pair (c := c) (s := s) (.to (.accept _ rid op t hup hc1 ?_ hc2) ?_) ?_
            · intro ho
              simp [ho] at hq
              simp only [view]
              revert hc1 hq
              cases (σ.act s).st <;> simp [AState.rank]
            · by_cases e : c = s <;> simp [view, upd2, upd, State.mod, e]
            · intro x y hxy
              have hyx : ¬(y = s ∧ x = c) := fun h => hxy ⟨h.2, h.1⟩
              by_cases hy : y = s <;> by_cases hx : x = s <;> simp_all [view, upd2, upd, State.mod, AMap.find_set]
    · -- unlink response
      rename_i u
      split at h
      · rename_i hu
        split at h
        · rename_i hd
          injection h with h; subst h
          refine sim_pair (c := c) (s := s) (.to (.uresDeaf _ u t hup hd) ?_) ?_
          · simp [view, upd2]
          · intro x y hxy; have hyx : ¬(y = s ∧ x = c) := fun h => hxy ⟨h.2, h.1⟩; simp [view, upd2, hxy, hyx]
        · unfold onUnlinkRes at h
          split at h
          · simp at h
          · rename_i p hp
            refine Sim.trans ?_ (sim_continueIf h)
            refine sim_pair (c := c) (s := s) (.to (.ures _ u t hup hu ?_) ?_) ?_
            · simp only at hp; simp [view, hp]
            · by_cases e : c = s <;> simp [view, upd2, upd, State.mod, e]
            · intro x y hxy
              have hyx : ¬(y = s ∧ x = c) := fun h => hxy ⟨h.2, h.1⟩
              by_cases hy : y = s <;> by_cases hx : x = s <;> simp_all [view, upd2, upd, State.mod, AMap.find_erase]
      · rename_i hu
        injection h with h; subst h
        refine sim_pair (c := c) (s := s) (.to (.uresDrop _ u t hup hu) ?_) ?_
        · simp [view, upd2]
        · intro x y hxy; simp [view, upd2, hxy]
    · -- notification
      split at h
      · rename_i hd
        injection h with h; subst h
        refine sim_pair (c := c) (s := s) (.to (.ntfDrop _ t hup (.inr hd)) ?_) ?_
        · simp [view, upd2]
        · intro x y hxy; simp [view, upd2, hxy]
      · unfold onNotify at h
        simp only at h
        split at h
        · rename_i hq
          injection h with h; subst h
          refine sim_pair (c := c) (s := s) (.to (.ntfDrop _ t hup (.inl hq)) ?_) ?_
          · simp [view, upd2]
          · intro x y hxy; simp [view, upd2, hxy]
        · rename_i u hq
          split at h
          · rename_i hu
            refine Sim.trans ?_ (sim_continueIf h)
            refine sim_pair (c := c) (s := s) (.to (.ntfUnl _ u t hup hq hu) ?_) ?_
            · by_cases e : c = s <;> simp [view, upd2, upd, State.mod, e]
            · intro x y hxy
              have hyx : ¬(y = s ∧ x = c) := fun h => hxy ⟨h.2, h.1⟩
              by_cases hy : y = s <;> by_cases hx : x = s <;> simp_all [view, upd2, upd, State.mod, AMap.find_erase]
          · simp at h
        · rename_i rid op hq
          refine Sim.trans ?_ (sim_continueIf h)
          refine sim_pair (c := c) (s := s) (.to (.ntfPend _ rid op t hup hq) ?_) ?_
          · by_cases e : c = s <;> simp [view, upd2, upd, State.mod, e]
          · intro x y hxy
            have hyx : ¬(y = s ∧ x = c) := fun h => hxy ⟨h.2, h.1⟩
            by_cases hy : y = s <;> by_cases hx : x = s <;> simp_all [view, upd2, upd, State.mod, AMap.find_erase]
        · rename_i hq
          refine Sim.trans ?_ (sim_continueIf h)
          refine sim_pair (c := c) (s := s) (.to (.ntfOp _ t hup hq) ?_) ?_
          · by_cases e : c = s <;> simp [view, upd2, upd, State.mod, e]
          · intro x y hxy
            have hyx : ¬(y = s ∧ x = c) := fun h => hxy ⟨h.2, h.1⟩
            by_cases hy : y = s <;> by_cases hx : x = s <;> simp_all [view, upd2, upd, State.mod, AMap.find_erase]

/-- the steps of `forget_link` behind the queue -/
theorem sim_forget {c : Nat} {o : Ora} {τ σ' : State}
    (h : (if (forgets c τ && o.unl) = true then continueIf c o (tryForget c τ) else .ok (tryForget c τ)) = .ok σ') : Sim φ τ σ' := by
  split at h
  · exact (sim_tryForget c τ).trans (sim_continueIf h)
  · injection h with h; subst h; exact sim_tryForget c τ

theorem sim_recvDn {s c : Nat} {o : Ora} {σ σ' : State} (h : recvDn s c o σ = .ok σ')
    (hl : φ.rl = true → ∀ p, p ∈ o.late → (σ.act c).unlinkQ.find p.1 = none) (hla : φ.nl = true → o.late = [])
    (hia : (σ.act c).initReq = true → (σ.act c).asked = true) : Sim φ σ σ' := by
  unfold recvDn at h
  split at h
  · injection h with h; subst h; exact .refl _
  · rename_i m t hdn
    simp only at h
    split at h
    · -- link response
      rename_i rid ok
      split at h
      · rename_i hr
        split at h
        · rename_i hd
          injection h with h; subst h
          refine sim_pair (c := c) (s := s) (.to (.resDeaf _ rid ok t hdn hd) ?_) ?_
          · simp [view, upd2]
          · intro x y hxy; have hyx : ¬(y = s ∧ x = c) := fun h => hxy ⟨h.2, h.1⟩; simp [view, upd2, hxy, hyx]
        · unfold onLinkRes at h
          split at h
          · simp at h
          · rename_i p hp
            simp only at hp
            simp only at h
            split at h
            · rename_i hok
              subst hok
              have key : Sim φ σ (State.mod { σ with
                  dn := upd2 σ.dn s c t, lreq := upd2 σ.lreq c s ((σ.lreq c s).erase rid)
                  hist := upd2 σ.hist c s (.known rid true :: σ.hist c s) } c
                    (fun a => { a with servers := a.servers.set s .operational })) := by
                refine sim_pair (c := c) (s := s) (.to (.resOk _ rid t hdn hr (by simp [view, hp])) ?_) ?_
                · by_cases e : s = c <;> simp [view, upd2, upd, State.mod, e]
                · intro x y hxy
                  have hyx : ¬(y = s ∧ x = c) := fun h => hxy ⟨h.2, h.1⟩
                  by_cases hy : y = c <;> by_cases hx : x = c <;> simp_all [view, upd2, upd, State.mod, AMap.find_set]
              split at h
              · rename_i hq
                refine key.trans (sim_initContinue h ?_ ?_ hla)
                · intro hr' p hp'
                  rw [mod_act_self]
                  exact hl hr' p hp'
                · rw [mod_act_self]
                  exact hia hq
              · injection h with h; subst h; exact key
            · rename_i hok
              simp at hok; subst hok
              have key : ∀ σ : State, σ.dn s c = .linkRes rid false :: t → rid ∈ σ.lreq c s →
                  (σ.act c).servers.find s = some p → (σ.act c).initReq = false → Sim φ σ (State.mod { σ with
                  dn := upd2 σ.dn s c t, lreq := upd2 σ.lreq c s ((σ.lreq c s).erase rid)
                  hist := upd2 σ.hist c s (.known rid false :: σ.hist c s) } c
                    (fun a => { a with servers := a.servers.erase s })) := by
                intro σ hdn hr hp hq
                refine sim_pair (c := c) (s := s) (.to (.resErr _ rid t hdn hr (by simp [view, hp]) hq) ?_) ?_
                · by_cases e : s = c <;> simp [view, upd2, upd, State.mod, e]
                · intro x y hxy
                  have hyx : ¬(y = s ∧ x = c) := fun h => hxy ⟨h.2, h.1⟩
                  by_cases hy : y = c <;> by_cases hx : x = c <;> simp_all [view, upd2, upd, State.mod, AMap.find_erase]
              split at h
              · rename_i hq
                injection h with h; subst h
                refine (sim_fail (a := c) hq).trans ?_
                have := key (σ.mod c (fun a => { a with initReq := false, inits := false :: a.inits })) hdn hr (by rw [mod_act_self]; exact hp) (by rw [mod_act_self])
                rw [mod_mod]
                have e := mod_mod { σ with
                  dn := upd2 σ.dn s c t, lreq := upd2 σ.lreq c s ((σ.lreq c s).erase rid)
                  hist := upd2 σ.hist c s (.known rid false :: σ.hist c s) } c
                    (fun a => { a with initReq := false, inits := false :: a.inits })
                    (fun a => { a with servers := a.servers.erase s })
                exact Eq.mp (congrArg (Sim φ _) e) this
              · rename_i hq
                injection h with h; subst h; exact key σ hdn hr hp (by simpa using hq)
      · rename_i hr
        injection h with h; subst h
        refine sim_pair (c := c) (s := s) (.to (.resDrop _ rid ok t hdn hr) ?_) ?_
        · simp [view, upd2]
        · intro x y hxy; have hyx : ¬(y = s ∧ x = c) := fun h => hxy ⟨h.2, h.1⟩; simp [view, upd2, hyx]
    · -- unlink request
      rename_i u
      split at h
      · rename_i hd
        injection h with h; subst h
        refine sim_pair (c := c) (s := s) (.to (.urIgnore _ u t hdn (.inr hd)) ?_) ?_
        · simp [view, upd2]
        · intro x y hxy; have hyx : ¬(y = s ∧ x = c) := fun h => hxy ⟨h.2, h.1⟩; simp [view, upd2, hyx]
      · split at h
        · injection h with h; subst h
          refine sim_pair (c := c) (s := s) (.to (.urKeep _ u t hdn) ?_) ?_
          · by_cases e : s = c <;> simp [view, upd2, upd, State.mod, e, keptOf_append]
          · intro x y hxy
            have hyx : ¬(y = s ∧ x = c) := fun h => hxy ⟨h.2, h.1⟩
            have hys : x = c → ¬ s = y := fun h e => hxy ⟨h, e.symm⟩
            by_cases hy : y = c <;> by_cases hx : x = c <;> simp_all [view, upd2, upd, State.mod, keptOf_append]
        · unfold forgetLink at h
          split at h
          · rename_i hn
            simp only at hn
            injection h with h; subst h
            refine sim_pair (c := c) (s := s) (.to (.urIgnore _ u t hdn (.inl hn)) ?_) ?_
            · simp [view, upd2]
            · intro x y hxy; have hyx : ¬(y = s ∧ x = c) := fun h => hxy ⟨h.2, h.1⟩; simp [view, upd2, hyx]
          · rename_i hn
            simp only at hn
            refine Sim.trans ?_ (sim_forget h)
            refine sim_pair (c := c) (s := s) (.to (.urQueue _ u t hdn hn) ?_) ?_
            · by_cases e : s = c <;> simp [view, upd2, upd, State.mod, e, find_append_one]
            · intro x y hxy
              have hyx : ¬(y = s ∧ x = c) := fun h => hxy ⟨h.2, h.1⟩
              have hys : x = c → ¬ s = y := fun h e => hxy ⟨h, e.symm⟩
              by_cases hy : y = c <;> by_cases hx : x = c <;> simp_all [view, upd2, upd, State.mod, find_append_one]

theorem sim_recvLTmo {c s : Nat} {o : Ora} {σ σ' : State} (h : recvLTmo c s o σ = .ok σ') : Sim φ σ σ' := by
  unfold recvLTmo at h
  split at h
  · injection h with h; subst h; exact .refl _
  · rename_i rid t ht
    simp only at h
    split at h
    · rename_i hd
      injection h with h; subst h
      refine sim_pair (c := c) (s := s) (.to (.tmoDeaf _ rid t ht hd) ?_) ?_
      · simp [view, upd2]
      · intro x y hxy; simp [view, upd2, hxy]
    · unfold onLinkRes at h
      split at h
      · simp at h
      · rename_i p hp
        simp only at hp
        simp only [Bool.false_eq_true, if_false] at h
        have key : ∀ σ : State, σ.ltmo c s = rid :: t → (σ.act c).servers.find s = some p → (σ.act c).initReq = false →
            Sim φ σ (State.mod { σ with
            ltmo := upd2 σ.ltmo c s t
            hist := upd2 σ.hist c s (.known rid false :: σ.hist c s) } c
              (fun a => { a with servers := a.servers.erase s })) := by
          intro σ ht hp hq
          refine sim_pair (c := c) (s := s) (.to (.tmoErr _ rid t ht (by simp [view, hp]) hq) ?_) ?_
          · by_cases e : s = c <;> simp [view, upd2, upd, State.mod, e]
          · intro x y hxy
            by_cases hy : y = c <;> by_cases hx : x = c <;> simp_all [view, upd2, upd, State.mod, AMap.find_erase]
        split at h
        · rename_i hq
          injection h with h; subst h
          refine (sim_fail (a := c) hq).trans ?_
          have := key (σ.mod c (fun a => { a with initReq := false, inits := false :: a.inits })) ht (by rw [mod_act_self]; exact hp) (by rw [mod_act_self])
          rw [mod_mod]
          have e := mod_mod { σ with
            ltmo := upd2 σ.ltmo c s t
            hist := upd2 σ.hist c s (.known rid false :: σ.hist c s) } c
              (fun a => { a with initReq := false, inits := false :: a.inits })
              (fun a => { a with servers := a.servers.erase s })
          exact Eq.mp (congrArg (Sim φ _) e) this
        · rename_i hq
          injection h with h; subst h; exact key σ ht hp (by simpa using hq)

theorem sim_recvUTmo {c s : Nat} {σ σ' : State} (h : recvUTmo s c σ = .ok σ') : Sim φ σ σ' := by
  unfold recvUTmo at h
  split at h
  · injection h with h; subst h; exact .refl _
  · rename_i u t ht
    have key : Sim φ σ { σ with utmo := upd2 σ.utmo s c t } := by
      refine sim_pair (c := c) (s := s) (.to (.utmo _ u t ht) ?_) ?_
      · simp [view, upd2]
      · intro x y hxy; have hyx : ¬(y = s ∧ x = c) := fun h => hxy ⟨h.2, h.1⟩; simp [view, upd2, hyx]
    simp only at h
    split at h
    · injection h with h; subst h; exact key
    · split at h
      · injection h with h; subst h
        exact key.trans (sim_mod_same (by simp [Actor.same]))
      · simp at h

theorem sim_onStart {s : Nat} {σ : State} (hs : (σ.act s).st = .initialized) : Sim φ σ (onStart s σ) := by
  have hf : ∀ k, AMap.find ((σ.act s).clients.map (fun p => (p.1, started p.2))) k = startQ ((σ.act s).clients.find k) := by
    intro k
    rw [find_map_val started]
    cases h : (σ.act s).clients.find k with
    | none => rfl
    | some p => cases p <;> rfl
  intro x y
  by_cases hy : y = s
  · subst hy
    by_cases hx : x = y
    · subst hx
      refine .to (.start _ .operational (by simp [view, hs, AState.rank]) (by simp) (.inr (.inr ⟨hs, rfl⟩)) hs) ?_
      simp only [onStart, view, State.mod, upd, hf]
      cases h : (σ.act x).clients.find x with
      | none => simp [startDn, startHist, hf, h]
      | some p => cases p <;> simp [startDn, startHist, hf, h]
    · refine .to (.start _ (σ.act x).st (by simp [view]) (by simp [view]) (.inl rfl) hs) ?_
      simp only [onStart, view, State.mod, upd, hf]
      cases h : (σ.act y).clients.find x with
      | none => simp [startDn, startHist, hx, hf, h]
      | some p => cases p <;> simp [startDn, startHist, hx, hf, h]
  · by_cases hx : x = s
    · subst hx
      refine .to (.st _ .operational (σ.act y).st (by simp [view, hs, AState.rank]) (by simp [view]) (by simp [view]) (by simp) (by simp [view]) (.inr (.inr ⟨hs, rfl⟩))) ?_
      simp [onStart, view, State.mod, upd, hy]
    · refine .of_eq ?_
      simp [onStart, view, State.mod, upd, hy, hx]

/-- the links an operation may ask for are not in the queue of unlink requests of the actor -/
def relinkFree (σ : State) : Op → Prop
  | .init a links o => ∀ p, p ∈ links ++ o.late → (σ.act a).unlinkQ.find p.1 = none
  | .contInit a o => ∀ p, p ∈ o.late → (σ.act a).unlinkQ.find p.1 = none
  | .link c s _ => (σ.act c).unlinkQ.find s = none
  | .dn _ c o => ∀ p, p ∈ o.late → (σ.act c).unlinkQ.find p.1 = none
  | _ => True

/-- no timer expires -/
def isTimeout : Op → Bool
  | .timeoutL _ _ _ => true
  | .timeoutU _ _ _ => true
  | _ => false

/-- the links asked for by plugins that are asked whether they are initialized -/
def lateOf : Op → List (Nat × Bool)
  | .init _ _ o => o.late
  | .contInit _ o => o.late
  | .dn _ _ o => o.late
  | _ => []

/-- the init request comes first -/
structure J (x : View) : Prop where
  ia : x.ir = true → x.ia = true
  st : x.cs = .initialized ∨ x.cs = .operational → x.ia = true
  one : x.ni + (if x.ir = true then 1 else 0) ≤ (if x.ia = true then 1 else 0)

theorem sim_step {σ σ' : State} {op : Op} (h : step σ op = .ok σ') (hj : ∀ c s, J (view σ c s)) (hr : φ.rl = true → relinkFree σ op)
    (ht : φ.nt = true → isTimeout op = false) (hn : φ.nl = true → lateOf op = []) : Sim φ σ σ' := by
  cases op with
  | init a links o =>
    simp only [step] at h
    split at h
    · rename_i hi
      split at h
      · simp at h
      · rename_i σ1 h1
        have e0 : (σ.mod a (fun a => { a with initReq := true, asked := true })).act a = { σ.act a with initReq := true, asked := true } :=
          mod_act_self _ _ _
        obtain ⟨⟨sv, ri, e⟩, -⟩ := linkAll_act h1
        refine (sim_begin hi.2).trans ((sim_linkAll h1 ?_ ?_ ?_ ?_).trans (sim_initContinue h ?_ ?_ hn))
        · rw [e0]; simp [hi.1, AState.rank]
        · intro h p hp; rw [e0]; exact hr h p (by simp [hp])
        · rw [e0]
        · rw [e0]; intro _; rfl
        · intro h p hp; rw [e, e0]; exact hr h p (by simp [hp])
        · rw [e, e0]
    · split at h
      · rename_i hi
        injection h with h; subst h
        exact sim_begin hi.2
      · simp at h
  | contInit a o =>
    simp only [step] at h
    split at h
    · rename_i hi
      exact sim_initContinue h hr ((hj a a).ia hi.2) hn
    · simp at h
  | link c s op =>
    simp only [step] at h
    split at h
    · rename_i hc
      refine sim_link h ?_ hr ?_ ?_
      · rcases hc with hc | hc | hc
        · rw [hc.1]; simp [AState.rank]
        · rw [hc]; simp [AState.rank]
        · rw [hc]; simp [AState.rank]
      · rcases hc with hc | hc | hc
        · exact (hj c c).ia hc.2
        · exact (hj c c).st (.inl hc)
        · exact (hj c c).st (.inr hc)
      · rcases hc with hc | hc | hc
        · exact fun _ => hc.2
        · rw [hc]; simp
        · rw [hc]; simp
    · simp at h
  | start a =>
    simp only [step] at h
    split at h
    · rename_i hs; injection h with h; subst h; exact sim_onStart hs
    · simp at h
  | shutdown a req o =>
    simp only [step] at h
    split at h
    · rename_i hs
      refine Sim.trans ?_ (sim_shutdownContinue h)
      refine sim_st ?_ (by simp) (by simp) (by simp [AState.rank]) (by simp [Actor.same])
      exact Nat.le_of_lt hs
    · simp at h
  | cont a o =>
    simp only [step] at h
    split at h
    · exact sim_shutdownContinue h
    · simp at h
  | up c s o => exact sim_recvUp h
  | dn s c o => exact sim_recvDn h hr hn (hj c c).ia
  | forget c s u o =>
    simp only [step] at h
    split at h
    · rename_i hk
      unfold forgetLink at h
      have hsub : ∀ u', u' ∈ keptOf s ((σ.act c).kept.erase (s, u)) → u' ∈ keptOf s (σ.act c).kept := by
        intro u' hu'
        rw [mem_keptOf] at hu' ⊢
        exact List.mem_of_mem_erase hu'
      split at h
      · rename_i hn
        rw [mod_act_self] at hn
        injection h with h; subst h
        refine sim_pair (c := c) (s := s) (.to (.unkeep _ _ hsub hn) ?_) ?_
        · by_cases e : s = c <;> simp [view, upd, State.mod, e]
        · intro x y hxy
          have hys : x = c → s ≠ y := fun h e => hxy ⟨h, e.symm⟩
          by_cases hy : y = c <;> by_cases hx : x = c <;> simp_all [view, upd, State.mod, keptOf_erase_ne]
      · rename_i hn
        rw [mod_act_self] at hn
        refine Sim.trans ?_ (sim_forget h)
        refine sim_pair (c := c) (s := s) (.to (.keepQueue _ u _ hsub (mem_keptOf.2 hk.1) hn) ?_) ?_
        · by_cases e : s = c <;> simp [view, upd, State.mod, e, find_append_one]
        · intro x y hxy
          have hys : x = c → s ≠ y := fun h e => hxy ⟨h, e.symm⟩
          by_cases hy : y = c <;> by_cases hx : x = c <;> simp_all [view, upd, State.mod, keptOf_erase_ne, find_append_one]
    · simp at h
  | timeoutL c s rid =>
    simp only [step] at h
    split at h
    · rename_i hm
      injection h with h; subst h
      refine sim_pair (c := c) (s := s) (.to (.tmoL _ rid ?_ hm) ?_) ?_
      · cases e : φ.nt with
        | false => rfl
        | true => simp [isTimeout, e] at ht
      · simp [view, upd2]
      · intro x y hxy; simp [view, upd2, hxy]
    · simp at h
  | ltmo c s o => exact sim_recvLTmo h
  | timeoutU s c u =>
    simp only [step] at h
    split at h
    · rename_i hm
      injection h with h; subst h
      refine sim_pair (c := c) (s := s) (.to (.tmoU _ u ?_ hm) ?_) ?_
      · cases e : φ.nt with
        | false => rfl
        | true => simp [isTimeout, e] at ht
      · simp [view, upd2]
      · intro x y hxy; have hyx : ¬(y = s ∧ x = c) := fun h => hxy ⟨h.2, h.1⟩; simp [view, upd2, hyx]
    · simp at h
  | utmo s c => exact sim_recvUTmo h
  | deafC a =>
    simp only [step] at h
    split at h
    · rename_i hc
      injection h with h; subst h
      intro x y
      by_cases hx : x = a
      · subst hx
        refine .to (.setDeafC _ hc) ?_
        by_cases hy : y = x <;> simp [view, State.mod, upd, hy]
      · refine .of_eq ?_
        by_cases hy : y = a <;> simp [view, State.mod, upd, hy, hx]
    · simp at h
  | deafS a =>
    simp only [step] at h
    split at h
    · rename_i hc
      injection h with h; subst h
      intro x y
      by_cases hy : y = a
      · subst hy
        refine .to (.setDeafS _ hc) ?_
        by_cases hx : x = y <;> simp [view, State.mod, upd, hx]
      · refine .of_eq ?_
        by_cases hx : x = a <;> simp [view, State.mod, upd, hy, hx]
    · simp at h
  | finish a =>
    simp only [step] at h
    split at h
    · rename_i hc
      obtain ⟨h1, h2, h3⟩ := hc
      injection h with h; subst h
      intro x y
      by_cases hx : x = a <;> by_cases hy : y = a
      · subst hx; subst hy
        refine .cons (.finC _ h1 h2) (.to (.finS _ h1 h3) ?_)
        simp [view, State.mod, upd]
      · subst hx
        refine .to (.finC _ h1 h2) ?_
        simp [view, State.mod, upd, hy]
      · subst hy
        refine .to (.finS _ h1 h3) ?_
        simp [view, State.mod, upd, hx]
      · refine .of_eq ?_
        simp [view, State.mod, upd, hy, hx]
    · simp at h

end Verif.Link
