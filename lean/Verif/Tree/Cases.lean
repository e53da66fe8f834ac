import Verif.Tree.Rest
import Verif.Children.Cases
/-!
# Concrete trees
-/

namespace Verif.Tree
open Verif Verif.Children

/-- a step of a tree -/
inductive TOp where
  | own (p : Path) (op : Op)
  | deliver (p : Path) (a : Nat) (o : Ora)
  | lost (p : Path) (a : Nat)

def memberB (s : Sys) (T : Tree) : Path → Bool
  | [] => true
  | a :: p => memberB s T p && s.sup (a :: p) && ((T p).kid a).born

theorem member_of {s : Sys} {T : Tree} : ∀ {p : Path}, memberB s T p = true → Member s T p
  | [], _ => trivial
  | a :: p, h => by
    simp only [memberB, Bool.and_eq_true] at h
    exact ⟨member_of h.1.1, h.1.2, h.2⟩

def ownB (s : Sys) (p : Path) (σ : State) : Op → Bool
  | .pInit _ | .pStart | .pShut _ => false
  | .kidRecv a _ | .kidInit a _ _ | .kidDown a | .kidShut a => !s.sup (a :: p) || !(σ.kid a).born
  | _ => true

theorem own_of {s : Sys} {p : Path} {σ : State} {op : Op} (h : ownB s p σ op = true) : Own s p σ op := by
  cases op <;> simp only [ownB, Own] at * <;> (try trivial) <;> (try simpa using h)

def stepT (s : Sys) (φ : Fl) (T : Tree) : TOp → Option Tree
  | .own p op =>
    if memberB s T p && ownB s p (T p) op && allowed φ (T p) op then
      match step (s.conf p) (T p) op with
      | .ok σ' => some (change T p σ')
      | .error _ => none
    else none
  | .deliver p a o =>
    match (T p).to a with
    | [] => none
    | m :: _ =>
      if memberB s T (a :: p) && decide ((T (a :: p)).st ≠ .shutDown) && allowed φ (T (a :: p)) (opOf o m) then
        match step (s.conf (a :: p)) (T (a :: p)) (opOf o m) with
        | .ok σ' => some (change (put T p (taken a (T p))) (a :: p) σ')
        | .error _ => none
      else none
  | .lost p a =>
    match (T p).to a with
    | [] => none
    | _ :: _ =>
      if memberB s T (a :: p) && decide ((T (a :: p)).st = .shuttingDown ∨ (T (a :: p)).st = .shutDown) then some (put T p (taken a (T p))) else none

theorem stepT_reach {s : Sys} {φ : Fl} {T T' : Tree} {x : TOp} (hr : TReach s φ T) (h : stepT s φ T x = some T') : TReach s φ T' := by
  cases x with
  | own p op =>
    simp only [stepT] at h
    split at h
    · rename_i hb
      simp only [Bool.and_eq_true] at hb
      split at h
      · rename_i σ' he
        injection h with h; subst h
        exact .own p op σ' hr (member_of hb.1.1) (own_of hb.1.2) (adm_of_allowed hb.2) he
      · simp at h
    · simp at h
  | deliver p a o =>
    simp only [stepT] at h
    split at h
    · simp at h
    · rename_i m t hq
      split at h
      · rename_i hb
        simp only [Bool.and_eq_true, decide_eq_true_eq] at hb
        split at h
        · rename_i σ' he
          injection h with h; subst h
          exact .deliver p a m t o σ' hr (member_of hb.1.1) hq hb.1.2 (adm_of_allowed hb.2) he
        · simp at h
      · simp at h
  | lost p a =>
    simp only [stepT] at h
    split at h
    · simp at h
    · rename_i m t hq
      split at h
      · rename_i hb
        simp only [Bool.and_eq_true, decide_eq_true_eq] at hb
        injection h with h; subst h
        exact .lost p a m t hr (member_of hb.1) hq hb.2
      · simp at h

def runT (s : Sys) (φ : Fl) : Tree → List TOp → Option Tree
  | T, [] => some T
  | T, x :: xs =>
    match stepT s φ T x with
    | none => none
    | some T' => runT s φ T' xs

theorem runT_reach {s : Sys} {φ : Fl} : ∀ {xs : List TOp} {T T' : Tree}, TReach s φ T → runT s φ T xs = some T' → TReach s φ T' := by
  intro xs
  induction xs with
  | nil => intro T T' hr h; simp only [runT] at h; injection h with h; subst h; exact hr
  | cons x xs ih =>
    intro T T' hr h
    simp only [runT] at h
    split at h
    · simp at h
    · rename_i T1 h1; exact ih (stepT_reach hr h1) h

/-- nothing is going on in the tree, whose members are `l` -/
def settledB (s : Sys) (T : Tree) (l : List Path) : Bool :=
  decide ([] ∈ l) && l.all fun p =>
    quiet (T p).nx (T p) && !((T p).closed && decide ((T p).st = .shuttingDown)) &&
      (List.range (T p).nx).all fun a =>
        if s.sup (a :: p) then !((T p).kid a).born || decide (a :: p ∈ l)
        else decide (((T p).kid a).st ≠ .shuttingDown) &&
          !(decide (((T p).kid a).st = .initializing) && ((T p).kid a).asked && !((T p).kid a).ans)

theorem members_of {s : Sys} {φ : Fl} {T : Tree} {l : List Path} (hr : TReach s φ T) (h : settledB s T l = true) : ∀ p, Member s T p → p ∈ l := by
  have hg := hr.g
  simp only [settledB, Bool.and_eq_true, decide_eq_true_eq, List.all_eq_true, List.mem_range] at h
  obtain ⟨h0, h⟩ := h
  intro p
  induction p with
  | nil => intro _; exact h0
  | cons a p ih =>
    intro hm
    have h1 := (h p (ih hm.1)).2
    by_cases ha : a < (T p).nx
    · have := h1 a ha
      rw [if_pos hm.2.1, hm.2.2] at this
      simpa using this
    · have := ((hg.reach p).base.1 a (Nat.le_of_not_lt ha)).k
      have hb := hm.2.2
      have e : (view (T p) a).k = (T p).kid a := rfl
      rw [← e, this] at hb
      simp [Kid.no] at hb

theorem settled_of {s : Sys} {φ : Fl} {T : Tree} {l : List Path} (hr : TReach s φ T) (h : settledB s T l = true) : Settled s T := by
  have hl := members_of hr h
  have hg := hr.g
  simp only [settledB, Bool.and_eq_true, decide_eq_true_eq, List.all_eq_true, List.mem_range, quiet, Bool.not_eq_true', Bool.and_eq_false_iff] at h
  obtain ⟨h0, h⟩ := h
  have blank := fun p a (ha : (T p).nx ≤ a) => (hg.reach p).base.1 a ha
  refine ⟨fun p hm => ?_, fun p hm σ' he => ?_, fun p a hm hs => ?_⟩
  · obtain ⟨⟨⟨h1, h2⟩, _⟩, _⟩ := h p (hl p hm)
    refine ⟨h1, fun a => ?_, fun a => ?_⟩
    · by_cases ha : a < (T p).nx
      · exact (h2 a ha).1
      · exact (blank p a (Nat.le_of_not_lt ha)).t
    · by_cases ha : a < (T p).nx
      · exact (h2 a ha).2
      · exact (blank p a (Nat.le_of_not_lt ha)).o
  · obtain ⟨⟨_, h2⟩, _⟩ := h p (hl p hm)
    simp only [step] at he
    split at he
    · rename_i hx
      rw [hx.1, hx.2] at h2
      simp at h2
    · simp at he
  · by_cases ha : a < (T p).nx
    · have := (h p (hl p hm)).2 a ha
      rw [hs] at this
      simp only [Bool.false_eq_true, if_false, Bool.and_eq_true, decide_eq_true_eq, Bool.not_eq_true', Bool.and_eq_false_iff, decide_eq_false_iff_not] at this
      refine ⟨fun hb => ?_, this.1⟩
      obtain ⟨b1, b2, b3⟩ := hb
      have := this.2
      rw [b1, b2, b3] at this
      simp at this
    · have e : (T p).kid a = Kid.no := (blank p a (Nat.le_of_not_lt ha)).k
      unfold Busy
      rw [e]; simp [Kid.no]

/-- a property of the tree reached -/
def afterT (s : Sys) (φ : Fl) (xs : List TOp) (P : Tree → Bool) : Bool :=
  match runT s φ (.init s) xs with
  | some T => P T
  | none => false

theorem afterT_reach {s : Sys} {φ : Fl} {xs : List TOp} {P : Tree → Bool} (h : afterT s φ xs P = true) : ∃ T, TReach s φ T ∧ P T = true := by
  unfold afterT at h
  split at h
  · rename_i T hs; exact ⟨T, runT_reach .init hs, h⟩
  · simp at h

/-- a root, its first child is a supervisor; all other children are not -/
def two : Sys := ⟨fun p => decide (p = [0]), fun _ => false, fun _ => true⟩

def R (op : Op) : TOp := .own [] op
def S (op : Op) : TOp := .own [0] op

/-- the root, a supervisor below it, an actor below that; and they are initialized -/
def up : List TOp := [R (.create 0), R r, R r, S (.create 0), .deliver [] 0 yes, S r, S (.kidRecv 0 false), S (.kidInit 0 true false), S (.flush 0), S r,
  S (.kidRecv 0 false), R (.flush 0), R r, .deliver [] 0 yes, R r, R r]

def states (T : Tree) : List AState := [(T []).st, (T [0]).st, ((T [0]).kid 0).st]

/-- all restrictions that have to do with circumstances, also for `synchronize_start` -/
def Fl.full : Fl := { Fl.strict with no := true }

example : Fair two Fl.full := ⟨rfl, rfl, rfl, rfl, .inl fun _ => rfl⟩

example : afterT two Fl.full up (fun T => decide (states T = [.operational, .operational, .operational]) && settledB two T [[], [0]]) = true := by decide

/-- so the theorem is about this execution -/
example : ∃ T, TReach two Fl.full T ∧ Settled two T ∧ Member two T [0] ∧ ((T []).st = .operational ∧ All two T (fun x => x = .operational ∨ x = .shutDown)) := by
  obtain ⟨T, hr, h⟩ := afterT_reach (s := two) (φ := Fl.full) (xs := up)
    (P := fun T => decide (states T = [.operational, .operational, .operational]) && settledB two T [[], [0]] && memberB two T [0]) (by decide)
  simp only [Bool.and_eq_true, decide_eq_true_eq] at h
  have hs := settled_of hr h.1.2
  refine ⟨T, hr, hs, member_of h.2, ?_⟩
  rcases C53_ends_partial ⟨rfl, rfl, rfl, rfl, .inl fun _ => rfl⟩ hr hs with h1 | h1
  · exact h1
  · have h2 := (h1 [] trivial).1
    have h3 : (T []).st = .operational := by have := h.1.1; simp only [states, List.cons.injEq] at this; exact this.1
    rw [h2] at h3; simp at h3

/-- the actor fails to initialize: the supervisors do, too, and in the end all of them are shut down -/
def failed : List TOp := [R (.create 0), R r, R r, S (.create 0), .deliver [] 0 yes, S r, S (.kidRecv 0 false), S (.kidInit 0 false false), S (.flush 0), S r,
  R (.flush 0), R r, R r, R r, .deliver [] 0 yes, S (.kidRecv 0 false), S (.kidShut 0), S (.flush 0), S r, S .finish, R (.flush 0), R r, R .finish]

example : afterT two Fl.full failed (fun T => decide (states T = [.shutDown, .shutDown, .shutDown]) && settledB two T [[], [0]]) = true := by decide

/-- the same with `synchronize_start` -/
def sync2 : Sys := { two with sync := fun _ => true }

example : Fair sync2 Fl.full := ⟨rfl, rfl, rfl, rfl, .inr ⟨rfl, rfl, rfl⟩⟩

def upS : List TOp := [R (.create 0), R r, R r, S (.create 0), .deliver [] 0 yes, S r, S (.kidRecv 0 false), S (.kidInit 0 true false), S (.flush 0), S r,
  R (.flush 0), R r, R r, R r, .deliver [] 0 yes, S (.kidRecv 0 false)]

example : afterT sync2 Fl.full upS (fun T => decide (states T = [.operational, .operational, .operational]) && settledB sync2 T [[], [0]]) = true := by decide

/-! ## steps counted -/

/-- the steps with an effect, those caused by user code, and the actors created -/
def costT (s : Sys) (T : Tree) (T' : Tree) : TOp → Nat × Nat × Nat
  | .own p op => ((if idle (T p) op then 0 else 1), (if user op then 1 else 0), (T' p).nx - (T p).nx)
  | .deliver p a _ => (1, 0, (T' (a :: p)).nx - (T (a :: p)).nx)
  | .lost _ _ => (1, 0, 0)

theorem stepT_run {s : Sys} {φ : Fl} {T0 T T' : Tree} {x : TOp} {n u m : Nat} (hr : TRun s φ T0 T n u m) (h : stepT s φ T x = some T') :
    TRun s φ T0 T' (n + (costT s T T' x).1) (u + (costT s T T' x).2.1) (m + (costT s T T' x).2.2) := by
  cases x with
  | own p op =>
    simp only [stepT] at h
    split at h
    · rename_i hb
      simp only [Bool.and_eq_true] at hb
      split at h
      · rename_i σ' he
        injection h with h; subst h
        have := TRun.own p op σ' hr (member_of hb.1.1) (own_of hb.1.2) (adm_of_allowed hb.2) he
        have e : change T p σ' p = σ' := by cases p <;> simp [change]
        simp only [costT, e]
        exact this
      · simp at h
    · simp at h
  | deliver p a o =>
    simp only [stepT] at h
    split at h
    · simp at h
    · rename_i m t hq
      split at h
      · rename_i hb
        simp only [Bool.and_eq_true, decide_eq_true_eq] at hb
        split at h
        · rename_i σ' he
          injection h with h; subst h
          have := TRun.deliver p a m t o σ' hr (member_of hb.1.1) hq hb.1.2 (adm_of_allowed hb.2) he
          have e : change (put T p (taken a (T p))) (a :: p) σ' (a :: p) = σ' := by simp [change]
          simp only [costT, e]
          exact this
        · simp at h
      · simp at h
  | lost p a =>
    simp only [stepT] at h
    split at h
    · simp at h
    · rename_i m t hq
      split at h
      · rename_i hb
        simp only [Bool.and_eq_true, decide_eq_true_eq] at hb
        injection h with h; subst h
        exact .lost p a m t hr (member_of hb.1) hq hb.2
      · simp at h

def countT (s : Sys) (φ : Fl) : Tree → List TOp → Nat × Nat × Nat → Option (Tree × Nat × Nat × Nat)
  | T, [], k => some (T, k)
  | T, x :: xs, k =>
    match stepT s φ T x with
    | none => none
    | some T' => countT s φ T' xs (k.1 + (costT s T T' x).1, k.2.1 + (costT s T T' x).2.1, k.2.2 + (costT s T T' x).2.2)

theorem countT_run {s : Sys} {φ : Fl} {T0 : Tree} : ∀ {xs : List TOp} {T T' : Tree} {k l : Nat × Nat × Nat}, TRun s φ T0 T k.1 k.2.1 k.2.2 →
    countT s φ T xs k = some (T', l) → TRun s φ T0 T' l.1 l.2.1 l.2.2 := by
  intro xs
  induction xs with
  | nil => intro T T' k l hr h; simp only [countT] at h; cases h; exact hr
  | cons x xs ih =>
    intro T T' k l hr h
    simp only [countT] at h
    split at h
    · simp at h
    · rename_i T1 h1; exact ih (stepT_run hr h1) h

theorem counted {s : Sys} {φ : Fl} {xs : List TOp} {n u m : Nat} (h : ((countT s φ (.init s) xs (0, 0, 0)).map (·.2)) = some (n, u, m)) :
    ∃ T, TRun s φ (.init s) T n u m := by
  cases hc : countT s φ (.init s) xs (0, 0, 0) with
  | none => rw [hc] at h; simp at h
  | some x =>
    obtain ⟨T, l⟩ := x
    rw [hc] at h
    simp only [Option.map_some, Option.some.injEq] at h
    subst h
    exact ⟨T, countT_run (k := (0, 0, 0)) (l := (n, u, m)) .refl hc⟩

/-- two actors are created, and all three are OPERATIONAL after 16 steps -/
example : ∃ T, TRun two Fl.full (.init two) T 16 2 2 := counted (xs := up) (by decide)

/-- one of them fails, and all three are shut down after 23 steps -/
example : ∃ T, TRun two Fl.full (.init two) T 23 2 2 := counted (xs := failed) (by decide)

/-- the initial state is not settled, and `C53_next` is about it: the root gets its init request -/
example : ∃ T' m, TRun two Fl.full (.init two) T' 1 0 m := by
  refine C53_next rfl ⟨rfl, rfl, rfl⟩ .init (fun h => ?_) (fun p hm a t hq => ?_)
  · have := (h.quiet [] trivial).q
    simp [Tree.init, State.init, Sys.conf] at this
  · cases p with
    | nil => simp [Tree.init, State.init, Sys.conf] at hq
    | cons b q => simp [Tree.init, State.init, Sys.conf] at hq

/-- no timer and no init request is left in the tree, whose members are `l` -/
def idleB (s : Sys) (T : Tree) (l : List Path) : Bool :=
  l.all fun p => !(T p).selfIA && (List.range (T p).nx).all fun a => !(T p).iA a && (s.sup (a :: p) || !((T p).kid a).ireq)

theorem idle_of {s : Sys} {φ : Fl} {T : Tree} {l : List Path} (hr : TReach s φ T) (hl : ∀ p, Member s T p → p ∈ l) (h : idleB s T l = true) : Idle s T := by
  have hg := hr.g
  simp only [idleB, List.all_eq_true, Bool.and_eq_true, Bool.not_eq_true', List.mem_range, Bool.or_eq_true] at h
  refine ⟨fun p hm => (h p (hl p hm)).1, fun p hm a => ?_, fun p hm a hs => ?_⟩
  · by_cases ha : a < (T p).nx
    · exact ((h p (hl p hm)).2 a ha).1
    · exact ((hg.reach p).base.1 a (Nat.le_of_not_lt ha)).iA
  · by_cases ha : a < (T p).nx
    · rcases ((h p (hl p hm)).2 a ha).2 with h1 | h1
      · rw [hs] at h1; simp at h1
      · exact h1
    · have : ((T p).kid a) = Kid.no := ((hg.reach p).base.1 a (Nat.le_of_not_lt ha)).k
      rw [this]; rfl

/-- after `up` nothing happens without user code, and `C53_outcome` is about it -/
example : ∃ T, TReach two Fl.full T ∧ (¬ ∃ T' m, TRun two Fl.full T T' 1 0 m) ∧ (∀ p, Member two T p → Allowed Fl.full (T p)) ∧
    All two T (fun x => x = .operational ∨ x = .shutDown) := by
  obtain ⟨T, hr, h⟩ := afterT_reach (s := two) (φ := Fl.full) (xs := up) (P := fun T => settledB two T [[], [0]] && idleB two T [[], [0]]) (by decide)
  simp only [Bool.and_eq_true] at h
  have hs := settled_of hr h.1
  have hi := idle_of hr (members_of hr h.1) h.2
  have hx : ¬ ∃ T' m, TRun two Fl.full T T' 1 0 m := fun ⟨T', m, h1⟩ => by have := (C53_still hr hs hi h1).2; omega
  have hb : ∀ p, Member two T p → Allowed Fl.full (T p) := fun p hm a t hq => by rw [(hs.quiet p hm).q] at hq; simp at hq
  refine ⟨T, hr, hx, hb, ?_⟩
  rcases C53_outcome ⟨rfl, rfl, rfl, rfl, .inl fun _ => rfl⟩ rfl ⟨rfl, rfl, rfl⟩ hr hb hx with h1 | h1
  · exact h1.2
  · exact fun p hm => ⟨.inr (h1 p hm).1, fun a ha => .inr ((h1 p hm).2 a ha)⟩

/-! ## what goes wrong -/

/-- without `no`: an actor created below a supervisor with `synchronize_start` that is OPERATIONAL stays INITIALIZED for ever -/
theorem C53_late_counterexample : afterT sync2 { Fl.full with no := false }
    (upS ++ [S (.create 0), S r, S (.kidRecv 1 false), S (.kidInit 1 true false), S (.flush 1), S r])
    (fun T => decide (states T = [.operational, .operational, .operational] ∧ ((T [0]).kid 1).st = .initialized) && settledB sync2 T [[], [0]]) = true := by decide

/-- without `ns`: a supervisor created while its parent is shutting down is never asked to shut down: neither of them is shut down ever -/
theorem C53_stuck_counterexample : afterT ⟨fun p => decide (p = [1]), fun _ => false, fun _ => true⟩ { Fl.full with ns := false }
    [R (.create 0), R r, R r, R (.kidRecv 0 false), R (.kidInit 0 true false), R (.flush 0), R r, R (.kidRecv 0 false), R r, R r,
      R .down, R r, R (.kidRecv 0 false), R (.kidShut 0), R (.flush 0), R (.recv { yes with later := true }), R (.create 0), R r, R r,
      .deliver [] 1 yes, R (.flush 1), R r, .deliver [] 1 yes]
    (fun T => decide ((T []).st = .shuttingDown ∧ (T [1]).st = .operational) && settledB ⟨fun p => decide (p = [1]), fun _ => false, fun _ => true⟩ T [[], [1]]) = true := by decide

/-- without `nc`: a supervisor created after the child manager of its parent has agreed: it is left under a supervisor that is shut down -/
theorem C53_left_counterexample : afterT two { Fl.full with nc := false, ns := false }
    [R r, R r, R r, R .down, R r, R (.create 0), R .finish, R r]
    (fun T => decide ((T []).st = .shutDown ∧ (T [0]).st = .initializing) && settledB two T [[], [0]]) = true := by decide

end Verif.Tree
