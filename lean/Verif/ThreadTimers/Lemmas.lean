import Verif.ThreadTimers.Spec

/-! # Proof machinery for the timers of the thread backend -/

namespace Verif.ThreadTimers

/-- order of the nodes: by deadline, then by identity -/
def lt (a b : Nat × Int) : Prop := a.2 < b.2 ∨ (a.2 = b.2 ∧ a.1 < b.1)

/-- order of timers by due time, then by start -/
def dueLt (log : List Ev) (a b : Nat) : Prop :=
  ∃ da db, due a log = some da ∧ due b log = some db ∧ lt (a, da) (b, db)

/-- local conditions on the log -/
def GoodLog : List Ev → Prop
  | [] => True
  | .updated _ :: r => GoodLog r
  | .started id _ _ :: r => due id r = none ∧ callCount id r = 0 ∧ GoodLog r
  | .cancelReq id :: r => callCount id r = 0 ∧ GoodLog r
  | .called id c clk :: r => callCount id r = 0 ∧
      (c = false → (∃ d, due id r = some d ∧ d < clk) ∧ Ev.cancelReq id ∉ r) ∧
      (c = true → Ev.cancelReq id ∈ r) ∧ GoodLog r

structure Inv (ex : Option Nat) (s : State) : Prop where
  sorted : s.nodes.Pairwise lt
  mapNodup : s.map.Nodup
  nodesMap : ∀ id, id ∈ s.map ↔ ∃ d, (id, d) ∈ s.nodes
  stackSub : ∀ id, id ∈ s.stack → id ∈ s.map
  stackNodup : s.stack.Nodup
  fresh : ∀ id, s.next ≤ id → due id s.log = none ∧ callCount id s.log = 0 ∧ Ev.cancelReq id ∉ s.log
  nodeDue : ∀ id d, (id, d) ∈ s.nodes → due id s.log = some d
  c1 : ∀ id, id ∈ s.map → id ∉ s.stack → callCount id s.log = 0
  c2 : ∀ id, id ∈ s.stack → callCount id s.log = 1
  c3 : ∀ id, (∃ d, due id s.log = some d) → id ∉ s.map → callCount id s.log = 1
  c4 : ∀ id, due id s.log = none → callCount id s.log = 0
  nowEq : s.now = loopTime s.log
  nowClock : s.now ≤ s.clock
  firedDue : ∀ id, id ∈ firedIds s.log → ∃ d, due id s.log = some d ∧ d < s.now
  firedSorted : (firedIds s.log).Pairwise (fun a b => dueLt s.log b a)
  firedBefore : ∀ f, f ∈ firedIds s.log → ∀ id d, (id, d) ∈ s.nodes → id ∉ s.stack → dueLt s.log f id
  pend : ∀ id, id ∈ s.map → id ∉ s.stack → some id ≠ ex → Ev.cancelReq id ∉ s.log
  good : GoodLog s.log

theorem Inv.node_unique {ex s} (hi : Inv ex s) {id d d'} (h : (id, d) ∈ s.nodes) (h' : (id, d') ∈ s.nodes) : d = d' := by
  have a := hi.nodeDue id d h; have b := hi.nodeDue id d' h'; rw [a] at b; simpa using b

theorem mem_eraseNode (id : Nat) (l : List (Nat × Int)) (x : Nat × Int) : x ∈ eraseNode id l ↔ x ∈ l ∧ x.1 ≠ id := by
  simp [eraseNode]

theorem deadline?_none (id : Nat) (l : List (Nat × Int)) : deadline? id l = none ↔ ∀ d, (id, d) ∉ l := by
  simp only [deadline?, Option.map_eq_none_iff, List.find?_eq_none, beq_iff_eq]
  constructor
  · intro h d hd; exact h _ hd rfl
  · intro h x hx he; subst he; exact h x.2 hx

theorem deadline?_some {id : Nat} {l : List (Nat × Int)} {d : Int} (h : deadline? id l = some d) : (id, d) ∈ l := by
  simp only [deadline?, Option.map_eq_some_iff] at h
  obtain ⟨x, h1, h2⟩ := h
  have := List.find?_some h1
  simp only [beq_iff_eq] at this
  have hm := List.mem_of_find?_eq_some h1
  subst this; subst h2; exact hm

theorem mem_ins (x y : Nat × Int) (l : List (Nat × Int)) : y ∈ ins x l ↔ y = x ∨ y ∈ l := by
  induction l with
  | nil => simp [ins]
  | cons z l ih =>
    simp only [ins]
    split
    · simp
    · simp only [List.mem_cons, ih]; grind

theorem ins_sorted (x : Nat × Int) (l : List (Nat × Int)) (h : l.Pairwise lt) (hx : ∀ y ∈ l, y.1 < x.1) :
    (ins x l).Pairwise lt := by
  induction l with
  | nil => simp [ins]
  | cons z l ih =>
    simp only [List.pairwise_cons] at h
    simp only [ins]
    split
    · rename_i hlt
      simp only [List.pairwise_cons, List.mem_cons]
      refine ⟨?_, h⟩
      rintro y (rfl | hy)
      · exact .inl hlt
      · rcases h.1 y hy with h' | h'
        · left; omega
        · left; omega
    · rename_i hlt
      simp only [List.pairwise_cons, mem_ins]
      refine ⟨?_, ih h.2 (fun y hy => hx y (by simp [hy]))⟩
      rintro y (rfl | hy)
      · have := hx z (by simp)
        by_cases he : z.2 = y.2
        · exact .inr ⟨he, this⟩
        · left; omega
      · exact h.1 y hy

/-- callbacks leave the timers alone while a blocking handler runs -/
def Quiet (env : Env) : Prop := ∀ log, ∀ a ∈ env true log, ∃ d, a = .work d

/-- what the commands leave alone; `pn` and `pc` say when the time and the set of timers are
unchanged -/
structure Frame (pn pc : Prop) (s s' : State) : Prop where
  stack : s'.stack = s.stack
  int : s'.intercepting = s.intercepting
  now : pn → s'.now = s.now
  next : s.next ≤ s'.next
  due : ∀ id d, due id s.log = some d → due id s'.log = some d
  fired : ∀ id, id ∈ firedIds s.log → id ∈ firedIds s'.log
  nodes : ∀ id d, id ∈ s.stack → (id, d) ∈ s.nodes → (id, d) ∈ s'.nodes
  creq : s.intercepting = true → pc → ∀ id, Ev.cancelReq id ∈ s'.log → Ev.cancelReq id ∈ s.log
  due' : s.intercepting = true → pc → ∀ id, ThreadTimers.due id s.log = none → ThreadTimers.due id s'.log = none
  next' : s.intercepting = true → pc → s'.next = s.next

theorem Frame.refl (pn pc : Prop) (s : State) : Frame pn pc s s :=
  ⟨rfl, rfl, fun _ => rfl, Nat.le_refl _, fun _ _ h => h, fun _ h => h, fun _ _ _ h => h, fun _ _ _ h => h,
   fun _ _ _ h => h, fun _ _ => rfl⟩

theorem Frame.trans {pn pc : Prop} {a b c : State} (h : Frame pn pc a b) (h' : Frame pn pc b c) : Frame pn pc a c :=
  ⟨h'.stack.trans h.stack, h'.int.trans h.int, fun p => (h'.now p).trans (h.now p), Nat.le_trans h.next h'.next,
   fun i d x => h'.due i d (h.due i d x),
   fun i x => h'.fired i (h.fired i x), fun i d hs x => h'.nodes i d (by rw [h.stack]; exact hs) (h.nodes i d hs x),
   fun hi hp i x => h.creq hi hp i (h'.creq (by rw [h.int]; exact hi) hp i x),
   fun hi hp i x => h'.due' (by rw [h.int]; exact hi) hp i (h.due' hi hp i x),
   fun hi hp => (h'.next' (by rw [h.int]; exact hi) hp).trans (h.next' hi hp)⟩

theorem Frame.weaken {pn pc pn' pc' : Prop} {a b : State} (h : Frame pn pc a b) (hn : pn' → pn)
    (hc : a.intercepting = true → pc' → pc) : Frame pn' pc' a b :=
  ⟨h.stack, h.int, fun p => h.now (hn p), h.next, h.due, h.fired, h.nodes, fun hi p => h.creq hi (hc hi p),
   fun hi p => h.due' hi (hc hi p), fun hi p => h.next' hi (hc hi p)⟩

/-- when user code leaves the time of the loop alone -/
def PN (s : State) : Prop := s.intercepting = false ∨ s.stack ≠ []
/-- when user code of a blocking handler leaves the timers alone: it is a callback -/
def PC (s : State) : Prop := s.stack ≠ []

def QuietInt (env : Env) (s : State) : Prop := s.intercepting = true → Quiet env

def Pre (env : Env) (cmd : Cmd) (s : State) : Prop :=
  QuietInt env s ∧
  match cmd with
  | .acts l => Inv none s ∧ (s.intercepting = true → s.stack = [] ∨ ∀ a ∈ l, ∃ d, a = .work d)
  | .update => Inv none s ∧ s.stack = []
  | .loop c => Inv none s ∧ s.stack = [] ∧ c = s.nodes.head?.map (·.1)
  | .trigger id false => Inv none s ∧ s.stack = [] ∧ ∃ d r, s.nodes = (id, d) :: r ∧ d < s.now
  | .trigger id true => Inv (some id) s ∧ id ∈ s.map ∧ id ∉ s.stack ∧ Ev.cancelReq id ∈ s.log

def Post (cmd : Cmd) (s s' : State) : Prop :=
  match cmd with
  | .acts _ => Inv none s' ∧ Frame (PN s) (PC s) s s'
  | .update => Inv none s' ∧ Frame False True s s' ∧ s'.now = s.clock ∧ ∀ x ∈ s'.nodes, s'.now ≤ x.2
  | .loop _ => Inv none s' ∧ Frame True True s s' ∧ ∀ x ∈ s'.nodes, s'.now ≤ x.2
  | .trigger id c => Inv none { s' with nodes := eraseNode id s'.nodes } ∧
      (∀ d, (id, d) ∈ s.nodes → (id, d) ∈ s'.nodes) ∧ Frame True True s s' ∧ (c = false → id ∈ firedIds s'.log) ∧
      s'.nodes.Pairwise lt ∧ ∀ d d', (id, d) ∈ s'.nodes → (id, d') ∈ s'.nodes → d = d'

/-- what can go wrong: nothing inside the library, except that a blocking handler cancels a timer
which has expired -/
def Bad (e : Err) : Prop :=
  e ≠ .fault ∧ ∀ id log, e = .notFound id log → ∃ d, due id log = some d ∧ d < loopTime log ∧ id ∈ firedIds log

theorem inv_work {s : State} (hi : Inv none s) (d : Nat) : Inv none { s with clock := s.clock + d } :=
  ⟨hi.sorted, hi.mapNodup, hi.nodesMap, hi.stackSub, hi.stackNodup, hi.fresh, hi.nodeDue, hi.c1, hi.c2, hi.c3, hi.c4,
   hi.nowEq, by have := hi.nowClock; simp only; omega, hi.firedDue, hi.firedSorted, hi.firedBefore, hi.pend, hi.good⟩

theorem mem_stack_lt {ex s} (hi : Inv ex s) {id : Nat} (h : id ∈ s.map) : id < s.next := by
  obtain ⟨d, hd⟩ := (hi.nodesMap id).1 h
  have h1 := hi.nodeDue id d hd
  apply Classical.byContradiction
  intro hn
  have := (hi.fresh id (by omega)).1
  rw [h1] at this; simp at this

theorem due_started_ne {id id' iv : Nat} {c : Int} {log : List Ev} (h : id' ≠ id) :
    due id (.started id' iv c :: log) = due id log := by simp [due, h]

theorem inv_next {s : State} (hi : Inv none s) : Inv none { s with next := s.next + 1 } :=
  ⟨hi.sorted, hi.mapNodup, hi.nodesMap, hi.stackSub, hi.stackNodup,
   fun id h => hi.fresh id (by simp only at h; omega), hi.nodeDue, hi.c1, hi.c2, hi.c3, hi.c4,
   hi.nowEq, hi.nowClock, hi.firedDue, hi.firedSorted, hi.firedBefore, hi.pend, hi.good⟩

theorem inv_start {s : State} {n : Nat} (hi : Inv none s) (iv : Nat) (clk : Int) (hn : s.next = n + 1)
    (hnew : due n s.log = none) (hreq : Ev.cancelReq n ∉ s.log) :
    let s' : State := { s with log := .started n iv clk :: s.log,
                               nodes := ins (n, s.now + iv) s.nodes, map := n :: s.map }
    Inv none s' ∧ (∀ id d, due id s.log = some d → due id s'.log = some d) := by
  intro s'
  have hcall : callCount n s.log = 0 := hi.c4 n hnew
  have hkeep : ∀ id d, due id s.log = some d → due id s'.log = some d := by
    intro id d h
    have : n ≠ id := by intro he; rw [he, h] at hnew; simp at hnew
    simp only [s']; rw [due_started_ne this]; exact h
  have hdl : ∀ a b, dueLt s.log a b → dueLt s'.log a b := by
    rintro a b ⟨x, y, h1, h2, h3⟩; exact ⟨x, y, hkeep _ _ h1, hkeep _ _ h2, h3⟩
  have hdnew : due n s'.log = some (s.now + iv) := by simp [s', due, hi.nowEq]
  have hnotmap : n ∉ s.map := by
    intro h
    obtain ⟨d, hd⟩ := (hi.nodesMap n).1 h
    have := hi.nodeDue n d hd
    rw [hnew] at this; simp at this
  have hmaplt : ∀ i, i ∈ s.map → i < n := by
    intro i h
    have h1 := mem_stack_lt hi h
    have h2 : i ≠ n := by intro he; subst he; exact hnotmap h
    omega
  have hnotstack : n ∉ s.stack := fun h => hnotmap (hi.stackSub _ h)
  have hcc : ∀ id, callCount id s'.log = callCount id s.log := by intro id; simp [s', callCount]
  have hfi : firedIds s'.log = firedIds s.log := by simp [s', firedIds]
  refine ⟨⟨?_, ?_, ?_, ?_, ?_, ?_, ?_, ?_, ?_, ?_, ?_, ?_, ?_, ?_, ?_, ?_, ?_, ?_⟩, hkeep⟩
  · apply ins_sorted _ _ hi.sorted
    intro y hy
    exact hmaplt _ ((hi.nodesMap y.1).2 ⟨y.2, hy⟩)
  · simp [s', hi.mapNodup, hnotmap]
  · intro id
    simp only [s', List.mem_cons, mem_ins, hi.nodesMap]
    constructor
    · rintro (rfl | ⟨d, h⟩)
      · exact ⟨_, .inl rfl⟩
      · exact ⟨d, .inr h⟩
    · rintro ⟨d, h | h⟩
      · left; simpa using congrArg Prod.fst h
      · exact .inr ⟨d, h⟩
  · intro id h; simp only [s'] at h ⊢; exact List.mem_cons_of_mem _ (hi.stackSub id h)
  · exact hi.stackNodup
  · intro id h
    simp only [s'] at h
    have := hi.fresh id h
    rw [hcc]
    refine ⟨?_, this.2.1, by simpa [s'] using this.2.2⟩
    simp only [s']; rw [due_started_ne (by omega)]; exact this.1
  · intro id d h
    simp only [s', mem_ins] at h
    rcases h with h | h
    · simp only [Prod.mk.injEq] at h; rw [h.1, h.2]; exact hdnew
    · exact hkeep _ _ (hi.nodeDue id d h)
  · intro id h hs
    rw [hcc]
    simp only [s', List.mem_cons] at h
    rcases h with rfl | h
    · exact hcall
    · exact hi.c1 id h hs
  · intro id h; rw [hcc]; exact hi.c2 id h
  · intro id h hm
    rw [hcc]
    simp only [s', List.mem_cons, not_or] at hm
    obtain ⟨d, hd⟩ := h
    simp only [s'] at hd
    rw [due_started_ne (fun h => hm.1 h.symm)] at hd
    exact hi.c3 id ⟨d, hd⟩ hm.2
  · intro id h
    rw [hcc]
    apply hi.c4
    by_cases he : n = id
    · rw [← he]; exact hnew
    · simp only [s'] at h; rwa [due_started_ne he] at h
  · simp only [s', loopTime]; exact hi.nowEq
  · exact hi.nowClock
  · intro id h
    rw [hfi] at h
    obtain ⟨d, h1, h2⟩ := hi.firedDue id h
    exact ⟨d, hkeep _ _ h1, h2⟩
  · rw [hfi]; exact hi.firedSorted.imp (fun {a b} h => hdl b a h)
  · intro f hf id d h hs
    rw [hfi] at hf
    simp only [s', mem_ins] at h
    rcases h with h | h
    · simp only [Prod.mk.injEq] at h
      obtain ⟨df, h1, h2⟩ := hi.firedDue f hf
      refine ⟨df, s.now + iv, hkeep _ _ h1, by rw [h.1]; exact hdnew, .inl ?_⟩
      simp only; omega
    · exact hdl _ _ (hi.firedBefore f hf id d h hs)
  · intro id h hs hex
    simp only [s', List.mem_cons, reduceCtorEq, false_or] at h ⊢
    rcases h with rfl | h
    · exact hreq
    · exact hi.pend id h hs hex
  · exact ⟨hnew, hcall, hi.good⟩

/-- a timer whose callback was invoked fired or was cancelled -/
theorem fired_or_cancelled {log : List Ev} {id : Nat} (hg : GoodLog log) (hc : callCount id log ≠ 0) :
    id ∈ firedIds log ∨ Ev.cancelReq id ∈ log := by
  induction log with
  | nil => simp [callCount] at hc
  | cons e r ih =>
    cases e with
    | updated c => rcases ih hg hc with h | h <;> simp [firedIds, h]
    | started a b c => rcases ih hg.2.2 hc with h | h <;> simp [firedIds, h]
    | cancelReq a => rcases ih hg.2 hc with h | h <;> simp [firedIds, h]
    | called a b c =>
      obtain ⟨_, h2, h3, h4⟩ := hg
      by_cases he : a = id
      · subst he
        cases b with
        | true => right; simp [h3 rfl]
        | false => left; simp [firedIds]
      · simp only [callCount, he, if_false, Nat.zero_add] at hc
        rcases ih h4 hc with h | h
        · left; cases b <;> simp [firedIds, h]
        · right; simp [h]

theorem inv_cancelReq {s : State} (hi : Inv none s) (id : Nat) (hm : id ∈ s.map) (hs : id ∉ s.stack) :
    Inv (some id) { s with log := .cancelReq id :: s.log } := by
  have hdue : ∀ i, due i (.cancelReq id :: s.log) = due i s.log := fun i => rfl
  have hcc : ∀ i, callCount i (.cancelReq id :: s.log) = callCount i s.log := fun i => rfl
  have hfi : firedIds (.cancelReq id :: s.log) = firedIds s.log := rfl
  have hdl : ∀ a b, dueLt s.log a b → dueLt (.cancelReq id :: s.log) a b := fun a b h => h
  refine ⟨hi.sorted, hi.mapNodup, hi.nodesMap, hi.stackSub, hi.stackNodup, ?_, hi.nodeDue, hi.c1, hi.c2, hi.c3, hi.c4,
   hi.nowEq, hi.nowClock, hi.firedDue, hi.firedSorted, hi.firedBefore, ?_, ⟨hi.c1 id hm hs, hi.good⟩⟩
  · intro i h
    have := hi.fresh i h
    refine ⟨this.1, this.2.1, ?_⟩
    simp only [List.mem_cons, Ev.cancelReq.injEq, not_or]
    refine ⟨?_, this.2.2⟩
    intro he; subst he
    have := mem_stack_lt hi hm
    simp only at h; omega
  · intro i h1 h2 h3
    simp only [List.mem_cons, Ev.cancelReq.injEq, not_or]
    refine ⟨fun he => h3 (by rw [he]), hi.pend i h1 h2 (by simp)⟩

theorem head_lt {id : Nat} {d : Int} {r : List (Nat × Int)} (h : ((id, d) :: r).Pairwise lt) {x : Nat × Int}
    (hx : x ∈ r) : lt (id, d) x := (List.pairwise_cons.1 h).1 x hx

/-- entering the callback -/
theorem inv_call {env : Env} {s : State} {id : Nat} {c : Bool} (hp0 : Pre env (.trigger id c) s) :
    Inv none { s with log := .called id c s.clock :: s.log, stack := id :: s.stack } := by
  have hp := hp0.2
  have hi : Inv (some id) s := by
    cases c with
    | true => exact hp.1
    | false =>
      have h := hp.1
      exact ⟨h.sorted, h.mapNodup, h.nodesMap, h.stackSub, h.stackNodup, h.fresh, h.nodeDue, h.c1, h.c2, h.c3, h.c4,
        h.nowEq, h.nowClock, h.firedDue, h.firedSorted, h.firedBefore, fun i a b _ => h.pend i a b (by simp), h.good⟩
  have hm : id ∈ s.map := by
    cases c with
    | true => exact hp.2.1
    | false =>
      obtain ⟨_, _, d, r, h, _⟩ := hp
      exact (hi.nodesMap id).2 ⟨d, by rw [h]; simp⟩
  have hs : id ∉ s.stack := by
    cases c with
    | true => exact hp.2.2.1
    | false => rw [hp.2.1]; simp
  have hcc : ∀ i, callCount i (.called id c s.clock :: s.log) = (if id = i then 1 else 0) + callCount i s.log := fun i => rfl
  have hc0 := hi.c1 id hm hs
  refine ⟨hi.sorted, hi.mapNodup, hi.nodesMap, ?_, ?_, ?_, hi.nodeDue, ?_, ?_, ?_, ?_, hi.nowEq, hi.nowClock, ?_, ?_, ?_, ?_, ?_⟩
  · intro i h
    simp only [List.mem_cons] at h
    rcases h with rfl | h
    · exact hm
    · exact hi.stackSub i h
  · simp [hs, hi.stackNodup]
  · intro i h
    have := hi.fresh i h
    have hne : id ≠ i := by intro he; subst he; have := mem_stack_lt hi hm; simp only at h; omega
    refine ⟨this.1, ?_, by simpa using this.2.2⟩
    rw [hcc]; simp [hne, this.2.1]
  · intro i h1 h2
    simp only [List.mem_cons, not_or] at h2
    rw [hcc, hi.c1 i h1 h2.2]
    have : id ≠ i := fun h => h2.1 h.symm
    simp [this]
  · intro i h
    rw [hcc]
    simp only [List.mem_cons] at h
    by_cases he : id = i
    · subst he; simp [hc0]
    · rcases h with h | h
      · exact absurd h.symm he
      · simp [he, hi.c2 i h]
  · intro i h1 h2
    rw [hcc]
    have : id ≠ i := by intro he; subst he; exact h2 hm
    simp [this, hi.c3 i h1 h2]
  · intro i h
    rw [hcc]
    have : id ≠ i := by
      intro he; subst he
      obtain ⟨d, hd⟩ := (hi.nodesMap id).1 hm
      have := hi.nodeDue id d hd
      simp only [due] at h; rw [this] at h; simp at h
    simp [this, hi.c4 i h]
  · intro i h
    cases c with
    | true => exact hi.firedDue i h
    | false =>
      simp only [firedIds, List.mem_cons] at h
      rcases h with rfl | h
      · obtain ⟨_, _, d, r, h1, h2⟩ := hp
        exact ⟨d, hi.nodeDue i d (by rw [h1]; simp), h2⟩
      · exact hi.firedDue i h
  · cases c with
    | true => exact hi.firedSorted
    | false =>
      simp only [firedIds, List.pairwise_cons]
      refine ⟨?_, hi.firedSorted⟩
      intro f hf
      obtain ⟨d, hd⟩ := (hi.nodesMap id).1 hm
      exact hi.firedBefore f hf id d hd hs
  · intro f hf i d hd hst
    simp only [List.mem_cons, not_or] at hst
    cases c with
    | true => exact hi.firedBefore f hf i d hd hst.2
    | false =>
      simp only [firedIds, List.mem_cons] at hf
      rcases hf with rfl | hf
      · obtain ⟨_, _, df, r, h1, h2⟩ := hp
        refine ⟨df, d, hi.nodeDue f df (by rw [h1]; simp), hi.nodeDue i d hd, ?_⟩
        have hso := hi.sorted
        rw [h1] at hso
        simp only at hd
        rw [h1] at hd
        simp only [List.mem_cons, Prod.mk.injEq] at hd
        rcases hd with hd | hd
        · exact absurd hd.1 hst.1
        · exact head_lt hso hd
      · exact hi.firedBefore f hf i d hd hst.2
  · intro i h1 h2 _
    simp only [List.mem_cons, not_or, reduceCtorEq, not_false_eq_true, true_and] at h2 ⊢
    exact hi.pend i h1 h2.2 (by simp [h2.1])
  · refine ⟨hc0, ?_, ?_, hi.good⟩
    · intro hc
      subst hc
      obtain ⟨hi', hst, d, r, h1, h2⟩ := hp
      refine ⟨⟨d, hi.nodeDue id d (by rw [h1]; simp), ?_⟩, hi'.pend id hm hs (by simp)⟩
      have := hi.nowClock; omega
    · intro hc; subst hc; exact hp.2.2.2

/-- leaving the callback and dropping the node -/
theorem inv_ret {s : State} {id : Nat} {st : List Nat} (hi : Inv none s) (hst : s.stack = id :: st) :
    Inv none { s with map := s.map.erase id, stack := st, nodes := eraseNode id s.nodes } := by
  have hsn := hi.stackNodup
  rw [hst] at hsn
  simp only [List.nodup_cons] at hsn
  have hm : id ∈ s.map := hi.stackSub id (by simp [hst])
  have hmem : ∀ i, i ∈ s.map.erase id ↔ i ≠ id ∧ i ∈ s.map := fun i => hi.mapNodup.mem_erase_iff
  have hsub : ∀ i, i ∈ st → i ∈ s.stack := by intro i h; rw [hst]; simp [h]
  have hns : ∀ i, i ∉ st → i ≠ id → i ∉ s.stack := by intro i h h'; rw [hst]; simp [h, h']
  refine ⟨hi.sorted.filter _, hi.mapNodup.erase _, ?_, ?_, hsn.2, hi.fresh, ?_, ?_, ?_, ?_, hi.c4, hi.nowEq, hi.nowClock,
    hi.firedDue, hi.firedSorted, ?_, ?_, hi.good⟩
  · intro i
    simp only [hmem, hi.nodesMap, mem_eraseNode]
    constructor
    · rintro ⟨h1, d, h2⟩; exact ⟨d, h2, h1⟩
    · rintro ⟨d, h2, h1⟩; exact ⟨h1, d, h2⟩
  · intro i h
    simp only at h
    refine (hmem i).2 ⟨?_, hi.stackSub i (hsub i h)⟩
    intro he; subst he; exact hsn.1 h
  · intro i d h
    simp only [mem_eraseNode] at h
    exact hi.nodeDue i d h.1
  · intro i h1 h2
    simp only at h1 h2
    have := (hmem i).1 h1
    exact hi.c1 i this.2 (hns i h2 this.1)
  · intro i h; exact hi.c2 i (hsub i h)
  · intro i h1 h2
    simp only at h2
    by_cases he : i = id
    · subst he; exact hi.c2 i (by simp [hst])
    · exact hi.c3 i h1 (fun h => h2 ((hmem i).2 ⟨he, h⟩))
  · intro f hf i d h hs
    simp only [mem_eraseNode] at h
    exact hi.firedBefore f hf i d h.1 (hns i hs h.2)
  · intro i h1 h2 h3
    have := (hmem i).1 h1
    exact hi.pend i this.2 (hns i h2 this.1) h3

theorem inv_update {s : State} (hi : Inv none s) :
    Inv none { s with now := s.clock, log := .updated s.clock :: s.log } := by
  refine ⟨hi.sorted, hi.mapNodup, hi.nodesMap, hi.stackSub, hi.stackNodup, ?_, hi.nodeDue, hi.c1, hi.c2, hi.c3, hi.c4,
   rfl, Int.le_refl _, ?_, hi.firedSorted, hi.firedBefore, ?_, hi.good⟩
  · intro i h; have := hi.fresh i h; exact ⟨this.1, this.2.1, by simpa using this.2.2⟩
  · intro i h
    obtain ⟨d, h1, h2⟩ := hi.firedDue i h
    have := hi.nowClock
    exact ⟨d, h1, by simp only; omega⟩
  · intro i a b c; simpa using hi.pend i a b c

theorem succOf_head {id : Nat} {d : Int} {r : List (Nat × Int)} : succOf id ((id, d) :: r) = r.head?.map (·.1) := by
  simp [succOf]

/-- the node that just fired is still the first one -/
theorem fired_is_head {s : State} {id : Nat} {d : Int} (hi : Inv none { s with nodes := eraseNode id s.nodes })
    (hst : s.stack = []) (hm : (id, d) ∈ s.nodes) (hd : due id s.log = some d) (hf : id ∈ firedIds s.log)
    (hso : s.nodes.Pairwise lt)
    (hu : ∀ d d', (id, d) ∈ s.nodes → (id, d') ∈ s.nodes → d = d') : ∃ r, s.nodes = (id, d) :: r ∧ eraseNode id s.nodes = r := by
  have hall : ∀ x ∈ s.nodes, x.1 ≠ id → lt (id, d) x := by
    intro x hx hne
    obtain ⟨a, b, h1, h2, h3⟩ := hi.firedBefore id hf x.1 x.2 (by simp [mem_eraseNode, hx, hne]) (by simp [hst])
    simp only at h1 h2
    rw [hd] at h1
    simp only [Option.some.injEq] at h1
    subst h1
    have := hi.nodeDue x.1 x.2 (by simp [mem_eraseNode, hx, hne])
    simp only at this
    rw [h2] at this
    simp only [Option.some.injEq] at this
    subst this; exact h3
  have irr : ∀ a b : Nat × Int, lt a b → lt b a → False := by
    rintro ⟨a, x⟩ ⟨b, y⟩ h h'
    simp only [lt] at h h'; omega
  have key : ∀ l : List (Nat × Int), l.Pairwise lt → (id, d) ∈ l → (∀ x ∈ l, x.1 ≠ id → lt (id, d) x) →
      (∀ d d', (id, d) ∈ l → (id, d') ∈ l → d = d') → ∃ r, l = (id, d) :: r ∧ eraseNode id l = r := by
    intro l hso hm hall hu
    cases l with
    | nil => simp at hm
    | cons y r =>
      simp only [List.pairwise_cons] at hso
      have hy : y = (id, d) := by
        simp only [List.mem_cons] at hm
        rcases hm with h | h
        · exact h.symm
        · have h1 := hso.1 _ h
          by_cases hne : y.1 = id
          · exfalso
            obtain ⟨yi, yd⟩ := y
            simp only at hne; subst hne
            have := hu yd d (by simp) (by simp [h])
            subst this
            exact irr _ _ h1 h1
          · exact absurd (hall y (by simp) hne) (fun h2 => irr _ _ h1 h2)
      subst hy
      refine ⟨r, rfl, ?_⟩
      simp only [eraseNode, List.filter_cons, bne_self_eq_false, Bool.false_eq_true, if_false]
      apply List.filter_eq_self.2
      intro x hx
      simp only [bne_iff_ne, ne_eq]
      intro he
      obtain ⟨xi, xd⟩ := x
      simp only at he; subst he
      have := hu d xd (by simp) (by simp [hx])
      subst this
      exact irr _ _ (hso.1 _ hx) (hso.1 _ hx)
  exact key s.nodes hso hm hall hu

theorem sorted_head_le {l : List (Nat × Int)} (h : l.Pairwise lt) (now : Int)
    (hh : ∀ x, l.head? = some x → now ≤ x.2) : ∀ x ∈ l, now ≤ x.2 := by
  cases l with
  | nil => simp
  | cons y r =>
    simp only [List.pairwise_cons] at h
    have := hh y rfl
    intro x hx
    simp only [List.mem_cons] at hx
    rcases hx with rfl | hx
    · exact this
    · rcases h.1 x hx with h' | h' <;> omega

/-- the main lemma: everything the library does keeps the invariant and never faults, provided that
callbacks called while a blocking handler runs leave the timers alone -/
theorem exec_ok (n : Nat) (env : Env) (cmd : Cmd) (s : State) (hp : Pre env cmd s) :
    match exec n env cmd s with
    | .ok s' => Post cmd s s'
    | .error e => Bad e := by
  induction n generalizing cmd s with
  | zero => simp [exec, Bad]
  | succ n ih =>
    obtain ⟨hq, hp⟩ := hp
    cases cmd with
    | acts l =>
      obtain ⟨hi, hw⟩ := hp
      cases l with
      | nil => simp only [exec]; exact ⟨hi, Frame.refl _ _ s⟩
      | cons a l =>
        have hw' : s.intercepting = true → s.stack = [] ∨ ∀ a ∈ l, ∃ d, a = .work d := by
          intro h
          rcases hw h with h' | h'
          · exact .inl h'
          · exact .inr (fun a ha => h' a (by simp [ha]))
        cases a with
        | work d =>
          simp only [exec]
          have := ih (.acts l) { s with clock := s.clock + d } ⟨hq, inv_work hi d, hw'⟩
          revert this
          cases exec n env (.acts l) { s with clock := s.clock + d } with
          | error e => exact id
          | ok s' =>
            rintro ⟨h1, h2⟩
            exact ⟨h1, h2.stack, h2.int, h2.now, h2.next, h2.due, h2.fired, h2.nodes, h2.creq, h2.due', h2.next'⟩
        | start iv =>
          have hst : s.intercepting = true → s.stack = [] := by
            intro h
            rcases hw h with h' | h'
            · exact h'
            · obtain ⟨d, hd⟩ := h' (.start iv) (by simp); simp at hd
          simp only [exec]
          -- the state in which the timer is inserted
          have key : ∀ s1 : State, Inv none s1 → s1.next = s.next + 1 → due s.next s1.log = none →
              Ev.cancelReq s.next ∉ s1.log → s1.stack = s.stack → s1.intercepting = s.intercepting →
              (s.intercepting = false → s1.now = s.now) →
              (∀ id d, due id s.log = some d → due id s1.log = some d) →
              (∀ id, id ∈ firedIds s.log → id ∈ firedIds s1.log) →
              (∀ id d, id ∈ s.stack → (id, d) ∈ s.nodes → (id, d) ∈ s1.nodes) →
              match exec n env (.acts l) { s1 with
                  log := .started s.next iv s.clock :: s1.log,
                  nodes := ins (s.next, s1.now + iv) s1.nodes, map := s.next :: s1.map } with
              | .ok s' => Inv none s' ∧ Frame (PN s) (PC s) s s'
              | .error e => Bad e := by
            intro s1 a1 a2 a3 a4 a5 a6 a7 a8 a9 a10
            obtain ⟨h1, h2⟩ := inv_start a1 iv s.clock a2 a3 a4
            have := ih (.acts l) _ ⟨(by
              intro hx; exact hq (by rw [← a6]; exact hx)), h1, (by
              intro hx; rw [← a6] at hw'; simp only at hx ⊢; rw [a5]; exact hw' hx)⟩
            revert this
            generalize exec n env (.acts l) _ = r
            cases r with
            | error e => exact id
            | ok s' =>
              rintro ⟨h3, h4⟩
              have hno : s.intercepting = true → PC s → False := fun hx hp => hp (hst hx)
              refine ⟨h3, h4.stack.trans a5, h4.int.trans a6, ?_, ?_, ?_, ?_, ?_, ?_, ?_, ?_⟩
              · intro hpn
                rcases hpn with hpn | hpn
                · exact (h4.now (.inl (by simp only; rw [a6]; exact hpn))).trans (a7 hpn)
                · cases hint : s.intercepting with
                  | true => exact absurd (hst hint) hpn
                  | false => exact (h4.now (.inl (by simp only; rw [a6]; exact hint))).trans (a7 hint)
              · have := h4.next; simp only at this; omega
              · intro i d h; exact h4.due i d (h2 i d (a8 i d h))
              · intro i h; exact h4.fired i (by simp only [firedIds]; exact a9 i h)
              · intro i d hs h
                exact h4.nodes i d (by simp only; rw [a5]; exact hs) (by simp only [mem_ins]; exact .inr (a10 i d hs h))
              · intro hx hp; exact absurd hp (fun h => hno hx h)
              · intro hx hp; exact absurd hp (fun h => hno hx h)
              · intro hx hp; exact absurd hp (fun h => hno hx h)
          have hfr := hi.fresh s.next (Nat.le_refl _)
          cases hint : s.intercepting with
          | false =>
            simp only [Bool.false_eq_true, if_false]
            have := key { s with next := s.next + 1 } (inv_next hi) rfl hfr.1 hfr.2.2 rfl rfl (fun _ => rfl)
              (fun _ _ h => h) (fun _ h => h) (fun _ _ _ h => h)
            simp only [hint] at this
            exact this
          | true =>
            simp only [if_true]
            have hst0 := hst hint
            have hu := ih .update { s with next := s.next + 1 } ⟨hq, inv_next hi, hst0⟩
            simp only [hint] at hu
            revert hu
            generalize exec n env .update _ = r
            cases r with
            | error e => exact id
            | ok s1 =>
              rintro ⟨b1, b2, b3, b4⟩
              simp only
              exact key s1 b1 (b2.next' rfl trivial) (b2.due' rfl trivial _ hfr.1)
                (fun h => hfr.2.2 (b2.creq rfl trivial _ h)) b2.stack (b2.int.trans hint.symm)
                (fun h => by rw [hint] at h; simp at h) b2.due b2.fired
                (fun i d hs _ => by rw [hst0] at hs; simp at hs)
        | cancel id =>
          have hst : s.intercepting = true → s.stack = [] := by
            intro h
            rcases hw h with h' | h'
            · exact h'
            · obtain ⟨d, hd⟩ := h' (.cancel id) (by simp); simp at hd
          have hno : s.intercepting = true → PC s → False := fun hx hp => hp (hst hx)
          simp only [exec]
          by_cases hill : id ∉ s.map ∨ id ∈ s.stack
          · rw [if_pos hill]; simp [Bad]
          · rw [if_neg hill]
            simp only [not_or, Decidable.not_not] at hill
            obtain ⟨hm, hs⟩ := hill
            have key : ∀ s1 : State, Inv none s1 → id ∈ s1.map → s1.stack = s.stack →
                s1.intercepting = s.intercepting →
                Frame (s.intercepting = false) False s s1 → 
                match (match exec n env (.trigger id true) { s1 with log := .cancelReq id :: s1.log } with
                  | .error e => .error e
                  | .ok s2 =>
                    if deadline? id s2.nodes = none then .error .fault
                    else exec n env (.acts l) { s2 with nodes := eraseNode id s2.nodes } : Except Err State) with
                | .ok s' => Inv none s' ∧ Frame (PN s) (PC s) s s'
                | .error e => Bad e := by
              intro s1 a1 a2 a3 a4 a5
              have hs1 : id ∉ s1.stack := by rw [a3]; exact hs
              have hi0 := inv_cancelReq a1 id a2 hs1
              obtain ⟨dd, hdd⟩ := (a1.nodesMap id).1 a2
              have ht := ih (.trigger id true) { s1 with log := .cancelReq id :: s1.log }
                ⟨fun hx => hq (by rw [← a4]; exact hx), hi0, a2, hs1, by simp⟩
              revert ht
              generalize exec n env (.trigger id true) _ = r
              cases r with
              | error e => exact fun h => h
              | ok s2 =>
                rintro ⟨h1, h2, h3, _, _⟩
                simp only
                have hin := h2 dd hdd
                rw [if_neg (by rw [deadline?_none]; intro h; exact h dd hin)]
                have hi2 : s2.intercepting = s.intercepting := h3.int.trans a4
                have hs2 : s2.stack = s.stack := h3.stack.trans a3
                have hl := ih (.acts l) { s2 with nodes := eraseNode id s2.nodes } ⟨(by
                  intro hx; exact hq (by rw [← hi2]; exact hx)), h1, (by
                  intro hx; simp only at hx ⊢; rw [hs2]; exact hw' (by rw [← hi2]; exact hx))⟩
                revert hl
                generalize exec n env (.acts l) _ = r
                cases r with
                | error e => exact fun h => h
                | ok s3 =>
                  rintro ⟨h4, h5⟩
                  refine ⟨h4, h5.stack.trans hs2, h5.int.trans hi2, ?_, ?_, ?_, ?_, ?_, ?_, ?_, ?_⟩
                  · intro hpn
                    have hint : s.intercepting = false := by
                      cases hx : s.intercepting with
                      | false => rfl
                      | true =>
                        rcases hpn with h | h
                        · rw [hx] at h; simp at h
                        · exact absurd (hst hx) h
                    exact (h5.now (.inl (by simp only; rw [hi2]; exact hint))).trans ((h3.now trivial).trans (a5.now hint))
                  · exact Nat.le_trans a5.next (Nat.le_trans h3.next h5.next)
                  · intro i d h; exact h5.due i d (h3.due i d (a5.due i d h))
                  · intro i h; exact h5.fired i (h3.fired i (a5.fired i h))
                  · intro i d h6 h7
                    refine h5.nodes i d (by simp only; rw [hs2]; exact h6) ?_
                    simp only [mem_eraseNode]
                    refine ⟨h3.nodes i d (by simp only; rw [a3]; exact h6) (a5.nodes i d h6 h7), ?_⟩
                    intro he; subst he; exact hs h6
                  · intro hx hp; exact absurd hp (fun h => hno hx h)
                  · intro hx hp; exact absurd hp (fun h => hno hx h)
                  · intro hx hp; exact absurd hp (fun h => hno hx h)
            cases hint : s.intercepting with
            | false =>
              simp only [Bool.false_eq_true, if_false]
              obtain ⟨dd, hdd⟩ := (hi.nodesMap id).1 hm
              rw [if_neg (by rw [deadline?_none]; intro h; exact h dd hdd)]
              have := key s hi hm rfl rfl (Frame.refl _ _ s)
              exact this
            | true =>
              simp only [if_true]
              have hst0 := hst hint
              have hu := ih .update s ⟨hq, hi, hst0⟩
              revert hu
              generalize exec n env .update s = r
              cases r with
              | error e => exact fun h => h
              | ok s1 =>
                rintro ⟨b1, b2, b3, b4⟩
                simp only
                by_cases hdl : deadline? id s1.nodes = none
                · rw [if_pos hdl]
                  rw [deadline?_none] at hdl
                  have hnm : id ∉ s1.map := by
                    intro h; obtain ⟨d, hd⟩ := (b1.nodesMap id).1 h; exact hdl d hd
                  obtain ⟨dd, hdd⟩ := (hi.nodesMap id).1 hm
                  have hdue := b2.due id dd (hi.nodeDue id dd hdd)
                  have hcc := b1.c3 id ⟨dd, hdue⟩ hnm
                  have hf : id ∈ firedIds s1.log := by
                    rcases fired_or_cancelled b1.good (id := id) (by omega) with h | h
                    · exact h
                    · exact absurd (b2.creq hint trivial _ h) (hi.pend id hm hs (by simp))
                  obtain ⟨d, h1, h2⟩ := b1.firedDue id hf
                  refine ⟨by simp, ?_⟩
                  intro i log he
                  simp only [Err.notFound.injEq] at he
                  obtain ⟨rfl, rfl⟩ := he
                  exact ⟨d, h1, by rw [← b1.nowEq]; exact h2, hf⟩
                · rw [if_neg hdl]
                  have hm1 : id ∈ s1.map := by
                    cases hx : deadline? id s1.nodes with
                    | none => exact absurd hx hdl
                    | some d => exact (b1.nodesMap id).2 ⟨d, deadline?_some hx⟩
                  exact key s1 b1 hm1 b2.stack b2.int
                    (b2.weaken (fun h => by rw [hint] at h; simp at h) (fun _ h => h.elim))
    | update =>
      obtain ⟨hi, hst⟩ := hp
      simp only [exec]
      have := ih (.loop (s.nodes.head?.map (·.1))) { s with now := s.clock, log := .updated s.clock :: s.log }
        ⟨hq, inv_update hi, hst, rfl⟩
      revert this
      generalize exec n env (.loop _) _ = r
      cases r with
      | error e => exact fun h => h
      | ok s' =>
        rintro ⟨h1, h2, h3⟩
        refine ⟨h1, ⟨h2.stack, h2.int, fun h => h.elim, h2.next, h2.due, h2.fired, h2.nodes, ?_, h2.due', h2.next'⟩,
          h2.now trivial, h3⟩
        intro hx hp i h
        simpa using h2.creq hx hp i h
    | loop c =>
      obtain ⟨hi, hst, hc⟩ := hp
      cases c with
      | none =>
        simp only [exec]
        refine ⟨hi, Frame.refl _ _ s, ?_⟩
        cases hn : s.nodes with
        | nil => simp
        | cons y r => rw [hn] at hc; simp at hc
      | some id =>
        simp only [exec]
        obtain ⟨⟨id', d⟩, r, hn⟩ : ∃ y r, s.nodes = y :: r := by
          cases hn : s.nodes with
          | nil => rw [hn] at hc; simp at hc
          | cons y r => exact ⟨y, r, rfl⟩
        have he : id = id' := by rw [hn] at hc; simpa using hc
        subst he
        have hd : deadline? id s.nodes = some d := by simp [deadline?, hn]
        rw [hd]
        simp only
        by_cases hlt : d < s.now
        · rw [if_pos hlt]
          have ht := ih (.trigger id false) s ⟨hq, hi, hst, d, r, hn, hlt⟩
          revert ht
          cases exec n env (.trigger id false) s with
          | error e => exact fun h => h
          | ok s1 =>
            rintro ⟨h1, h2, h3, h4, h5, h6⟩
            simp only
            have hin := h2 d (by rw [hn]; simp)
            rw [if_neg (by rw [deadline?_none]; intro h; exact h d hin)]
            have hst1 : s1.stack = [] := by rw [h3.stack]; exact hst
            have hdue := h3.due id d (hi.nodeDue id d (by rw [hn]; simp))
            obtain ⟨r', hr1, hr2⟩ := fired_is_head h1 hst1 hin hdue (h4 rfl) h5 h6
            have hl := ih (.loop (succOf id s1.nodes)) { s1 with nodes := eraseNode id s1.nodes }
              ⟨fun hx => hq (by rw [← h3.int]; exact hx), h1, hst1, by simp only; rw [hr2, hr1, succOf_head]⟩
            revert hl
            generalize exec n env (.loop (succOf id s1.nodes)) _ = q
            cases q with
            | error e => exact fun h => h
            | ok s' =>
              rintro ⟨a1, a2, a3⟩
              refine ⟨a1, ?_, a3⟩
              refine Frame.trans (b := { s1 with nodes := eraseNode id s1.nodes }) ?_ a2
              exact ⟨h3.stack, h3.int, h3.now, h3.next, h3.due, h3.fired,
                (fun i d hs _ => by rw [hst] at hs; simp at hs), h3.creq, h3.due', h3.next'⟩
        · rw [if_neg hlt]
          refine ⟨hi, Frame.refl _ _ s, sorted_head_le hi.sorted _ ?_⟩
          intro x hx
          rw [hn] at hx
          simp only [List.head?_cons, Option.some.injEq] at hx
          subst hx; simp only; omega
    | trigger id c =>
      simp only [exec]
      have hi1 := inv_call (env := env) ⟨hq, hp⟩
      have hm : id ∈ s.map := hi1.stackSub id (by simp)
      rw [if_neg (by simpa using hm)]
      have ha := ih (.acts (env s.intercepting (.called id c s.clock :: s.log)))
        { s with log := .called id c s.clock :: s.log, stack := id :: s.stack } ⟨hq, hi1, (by
        intro hx
        right
        have hx' : s.intercepting = true := hx
        rw [hx']
        exact hq hx' _)⟩
      revert ha
      generalize exec n env (.acts (env s.intercepting (.called id c s.clock :: s.log))) _ = r
      cases r with
      | error e => exact fun h => h
      | ok s2 =>
        rintro ⟨h1, h2⟩
        simp only
        have hst2 : s2.stack = id :: s.stack := h2.stack
        have hm2 : id ∈ s2.map := h1.stackSub id (by simp [hst2])
        rw [if_neg (by simpa using hm2)]
        have hpc : ∀ st : State, st.stack = id :: s.stack → PC st := by intro st h; simp [PC, h]
        refine ⟨?_, ?_, ?_, ?_, ?_, ?_⟩
        · have := inv_ret h1 hst2
          simp only [hst2, List.tail_cons]
          exact this
        · intro d hd; exact h2.nodes id d (by simp) hd
        · refine ⟨by simp [hst2], h2.int, fun _ => h2.now (.inr (by simp)), h2.next, h2.due, ?_, ?_, ?_, ?_, ?_⟩
          · intro i hf
            apply h2.fired
            cases c with
            | true => exact hf
            | false => simp only [firedIds, List.mem_cons]; exact .inr hf
          · intro i d hs hd; exact h2.nodes i d (by simp [hs]) hd
          · intro hx _ i h; simpa using h2.creq hx (hpc _ rfl) i h
          · intro hx _ i h; exact h2.due' hx (hpc _ rfl) i h
          · intro hx _; exact h2.next' hx (hpc _ rfl)
        · intro hc; subst hc; exact h2.fired id (by simp [firedIds])
        · exact h1.sorted
        · intro d d' a b; exact h1.node_unique a b

end Verif.ThreadTimers
