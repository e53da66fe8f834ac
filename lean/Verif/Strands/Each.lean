import Verif.Strands.Cases
/-!
# C65: no message of a locality is left behind, and every subscribed handler is called once
-/

namespace Verif.Strands

/-! ## Nothing waits in a strand that has nothing to do -/

/-- the supervisors of a strand are one group (`C47_split_strand_counterexample` is a tree where they are not) -/
def OneGroup (T : Topo) : Prop := ∀ s s', T.strand s = T.strand s' → T.leader s = T.leader s'

structure Rest (T : Topo) (σ : State) : Prop where
  inb : ∀ l, σ.inbound l ≠ [] → (∃ s, Task.process s ∈ σ.tasks (T.strand l) ∧ T.leader s = l) ∨
    (∃ e, σ.exec (T.strand l) = some e ∧ e.pc = .moving ∧ T.leader e.sup = l)
  que : OneGroup T → ∀ l, σ.queue l ≠ [] → ∃ e, σ.exec (T.strand l) = some e ∧ T.leader e.sup = l

theorem Rest.init (T : Topo) : Rest T State.init := by
  constructor <;> simp [State.init]

theorem Rest.keep {T : Topo} {σ σ' : State} (h : Rest T σ) (h1 : σ'.inbound = σ.inbound) (h2 : σ'.queue = σ.queue)
    (ht : ∀ k s, Task.process s ∈ σ.tasks k → Task.process s ∈ σ'.tasks k)
    (he : ∀ k e, σ.exec k = some e → ∃ e', σ'.exec k = some e' ∧ e'.sup = e.sup ∧ (e.pc = .moving → e'.pc = .moving)) : Rest T σ' := by
  refine ⟨fun l hl => ?_, fun ho l hl => ?_⟩
  · rw [h1] at hl
    rcases h.inb l hl with ⟨s, hs, e⟩ | ⟨e, hs, hm, e2⟩
    · exact .inl ⟨s, ht _ _ hs, e⟩
    · obtain ⟨e', h3, h4, h5⟩ := he _ _ hs
      exact .inr ⟨e', h3, h5 hm, by rw [h4]; exact e2⟩
  · rw [h2] at hl
    obtain ⟨e, hs, e2⟩ := h.que ho l hl
    obtain ⟨e', h3, h4, h5⟩ := he _ _ hs
    exact ⟨e', h3, by rw [h4]; exact e2⟩

/-- the closure of strand `k` goes on, but takes nothing from the inbound queue any more -/
theorem Rest.setPc {T : Topo} {σ : State} (h : Rest T σ) {k : Nat} {e e' : Exec} (he : σ.exec k = some e) (hs : e'.sup = e.sup) (p : Pc)
    (hp : e.pc = .moving → σ.inbound (T.leader e.sup) = []) : Rest T (setPc k e' p σ) := by
  refine ⟨fun l hl => ?_, fun ho l hl => ?_⟩
  · rcases h.inb l hl with ⟨s, hs, e⟩ | ⟨e1, hs1, hm, e2⟩
    · exact .inl ⟨s, hs, e⟩
    · by_cases hk : T.strand l = k
      · rw [hk, he] at hs1; cases hs1
        exact absurd (e2 ▸ hp hm) hl
      · exact .inr ⟨e1, by simp only [Strands.setPc, upd, if_neg hk]; exact hs1, hm, e2⟩
  · obtain ⟨e1, hs1, e2⟩ := h.que ho l hl
    by_cases hk : T.strand l = k
    · rw [hk, he] at hs1; cases hs1
      exact ⟨{ e' with pc := p }, by simp only [Strands.setPc, upd, if_pos hk], by simp only [hs]; exact e2⟩
    · exact ⟨e1, by simp only [Strands.setPc, upd, if_neg hk]; exact hs1, e2⟩

theorem Rest.finish {T : Topo} {σ σ' : State} (h : Rest T σ) {k t : Nat} {e : Exec} (he : σ.exec k = some e)
    (hp : e.pc = .moving → σ.inbound (T.leader e.sup) = []) (hq : σ.queue (T.leader e.sup) = []) (e' : finish k t σ = .ok σ') : Rest T σ' := by
  unfold Strands.finish at e'
  split at e'
  · injection e' with e'; subst e'
    refine ⟨fun l hl => ?_, fun ho l hl => ?_⟩
    · rcases h.inb l hl with ⟨s, hs, e⟩ | ⟨e1, hs1, hm, e2⟩
      · exact .inl ⟨s, hs, e⟩
      · by_cases hk : T.strand l = k
        · rw [hk, he] at hs1; cases hs1
          exact absurd (e2 ▸ hp hm) hl
        · exact .inr ⟨e1, by simp only [upd, if_neg hk]; exact hs1, hm, e2⟩
    · obtain ⟨e1, hs1, e2⟩ := h.que ho l hl
      by_cases hk : T.strand l = k
      · rw [hk, he] at hs1; cases hs1
        exact absurd (e2 ▸ hq) hl
      · exact ⟨e1, by simp only [upd, if_neg hk]; exact hs1, e2⟩
  · cases e'

theorem Rest.defer {T : Topo} {σ : State} (h : Rest T σ) (k : Nat) (t : Task) : Rest T (defer k t σ) := by
  refine h.keep rfl rfl ?_ (fun _ e he => ⟨e, he, rfl, id⟩)
  intro k' s hs
  simp only [Strands.defer, upd]
  split
  · rename_i hk; subst hk; exact List.mem_append_left _ hs
  · exact hs

theorem Rest.enqueue {T : Topo} {σ σ' : State} (h : Rest T σ) {s : Nat} {m : Msg} (e : enqueue T s m σ = .ok σ') : Rest T σ' := by
  unfold Strands.enqueue at e
  split at e
  · injection e with e; subst e
    have h1 := h.defer (T.strand s) (.process s)
    refine ⟨fun l hl => ?_, h1.que⟩
    by_cases hk : l = T.leader s
    · subst hk
      exact .inl ⟨s, by simp only [Strands.defer, upd, leader_strand]; simp, rfl⟩
    · simp only [Strands.defer, upd, if_neg hk] at hl
      exact h1.inb l hl
  · cases e

theorem Rest.deliverExternal {T : Topo} {m : Nat} : ∀ {l : List Nat} {σ σ' : State}, Rest T σ → deliverExternal T m l σ = .ok σ' → Rest T σ' := by
  intro l
  induction l with
  | nil => intro σ σ' h e; simp [Strands.deliverExternal] at e; subst e; exact h
  | cons a l ih =>
    intro σ σ' h e
    simp only [Strands.deliverExternal] at e
    split at e
    · cases e
    · rename_i σ₁ e₁; exact ih (h.enqueue e₁) e

theorem Rest.tail {T : Topo} {σ : State} (h : Rest T σ) {l : Nat} {x : Msg} {q : List Msg} (hq : σ.queue l = x :: q) (c : Nat → Msg) :
    Rest T { σ with queue := upd σ.queue l q, cur := c } := by
  refine ⟨h.inb, fun ho l' hl => ?_⟩
  by_cases hk : l' = l
  · exact h.que ho l' (by rw [hk, hq]; simp)
  · simp only [upd, if_neg hk] at hl; exact h.que ho l' hl

theorem Rest.dispatch {T : Topo} {σ σ' : State} (h : Rest T σ) {k : Nat} {e : Exec} (he : σ.exec k = some e) (hp : e.pc = .proc) {subs : List Nat}
    {alive : Bool} (h' : dispatch T k e subs alive σ = .ok σ') : Rest T σ' := by
  unfold Strands.dispatch at h'
  simp only at h'
  split at h'
  · cases h'
  · rename_i msg q hq
    have hn : e.pc = .moving → ∀ x : List Msg, x = [] := by rw [hp]; intro hx; cases hx
    split at h'
    · split at h'
      · split at h'
        · cases h'
        · rename_i m s hd _ σ₁ e₁
          injection h' with h'; subst h'
          have h1 := Rest.deliverExternal (h.tail hq (upd σ.cur k (.user m s))) e₁
          exact h1.setPc (e := e) (by rw [deliverExternal_exec e₁]; exact he) rfl _ (fun hx => hn hx _)
      · rename_i m a hd
        injection h' with h'; subst h'
        exact (h.tail hq (upd σ.cur k (.hcall m a))).setPc (e := e) he rfl _ (fun hx => hn hx _)
    · exact (h.tail hq (upd σ.cur k msg)).enqueue h'

theorem Rest.step {T : Topo} {σ σ' : State} (hi : Inv T σ) (h : Rest T σ) {l : Label} (e : step T σ l = .ok σ') : Rest T σ' := by
  cases l with
  | send k m =>
    obtain ⟨x, hx, -, e⟩ := onExec_ok e
    split at e
    · rename_i a ha
      unfold put at e
      simp only at e
      split at e
      · injection e with e; subst e
        refine ⟨h.inb, fun ho l hl => ?_⟩
        by_cases hk : l = T.leader (T.supOf a)
        · subst hk
          have h1 : T.strand (T.supOf a) = k := hi.pc k x hx a (by
            revert ha
            cases x.pc <;> simp [Pc.running, Pc.actors] <;> intro h <;> simp [h])
          refine ⟨x, by rw [leader_strand, h1]; exact hx, ho _ _ (by rw [h1]; exact hi.ex k x hx)⟩
        · simp only [upd, if_neg hk] at hl; exact h.que ho l hl
      · cases e
    · cases e
  | begin c a => injection e with e; subst e; exact h.keep rfl rfl (fun _ _ => id) (fun _ e he => ⟨e, he, rfl, id⟩)
  | complete c a ec =>
    simp only [Strands.step] at e
    split at e
    · unfold forward at e
      simp only at e
      split at e
      · cases e
      · split at e <;> injection e with e <;> subst e
        · exact (h.defer _ (.fwd c a true)).keep rfl rfl (fun _ _ => id) (fun _ e he => ⟨e, he, rfl, id⟩)
        · exact (h.defer _ (.fwd c a false)).keep rfl rfl (fun _ _ => id) (fun _ e he => ⟨e, he, rfl, id⟩)
    · cases e
  | expire a => injection e with e; subst e; exact h.defer _ _
  | enqueue s m => exact h.enqueue e
  | take k t there =>
    simp only [Strands.step] at e
    split at e
    · rename_i task ts _ he hts
      injection e with e
      subst e
      have hnx : ∀ l e, σ.exec (T.strand l) = some e → T.strand l ≠ k := by
        intro l e h1 h2; rw [h2, he] at h1; cases h1
      have keep : ∀ {σ' : State}, (∀ s, task ≠ .process s) → σ'.inbound = σ.inbound → σ'.queue = σ.queue → σ'.tasks = upd σ.tasks k ts →
          (∀ k', k' ≠ k → σ'.exec k' = σ.exec k') → Rest T σ' := by
        intro σ' hn h1 h2 h3 h4
        refine h.keep h1 h2 ?_ ?_
        · intro k' s hs
          rw [h3]
          simp only [upd]
          split
          · rename_i hk; subst hk; rw [hts] at hs
            rcases List.mem_cons.1 hs with hs | hs
            · exact absurd hs.symm (hn s)
            · exact hs
          · exact hs
        · intro k' e he'
          refine ⟨e, ?_, rfl, id⟩
          rw [h4 k']
          · exact he'
          · intro hk; rw [hk, he] at he'; cases he'
      cases task with
      | fwd c a err => exact keep (by simp) rfl rfl rfl (fun k' hk => by simp only [start, upd, if_neg hk])
      | timer a =>
        simp only [start]
        split
        · exact keep (by simp) rfl rfl rfl (fun k' hk => by simp only [upd, if_neg hk])
        · exact keep (by simp) rfl rfl rfl (fun k' hk => rfl)
      | process s =>
        have hk : T.strand s = k := hi.tk k (.process s) (by rw [hts]; simp)
        refine ⟨fun l hl => ?_, fun ho l hl => ?_⟩
        · rcases h.inb l hl with ⟨s', hs, e⟩ | ⟨e1, hs1, hm, e2⟩
          · by_cases hls : T.leader s = l
            · exact .inr ⟨⟨s, true, false, .moving⟩, by
                have : T.strand l = k := by rw [← hls, leader_strand, hk]
                simp only [start, upd, if_pos this], rfl, hls⟩
            · refine .inl ⟨s', ?_, e⟩
              simp only [start, upd]
              split
              · rename_i hkk
                rw [hkk, hts] at hs
                rcases List.mem_cons.1 hs with hs | hs
                · cases hs; exact absurd e hls
                · exact hs
              · exact hs
          · exact .inr ⟨e1, by simp only [start, upd, if_neg (hnx _ _ hs1)]; exact hs1, hm, e2⟩
        · obtain ⟨e1, hs1, e2⟩ := h.que ho l hl
          exact ⟨e1, by simp only [start, upd, if_neg (hnx _ _ hs1)]; exact hs1, e2⟩
    · cases e
  | back k =>
    obtain ⟨x, hx, -, e⟩ := onExec_ok e
    split at e
    · rename_i a hp
      injection e with e; subst e
      exact h.setPc hx rfl _ (by rw [hp]; intro hx; cases hx)
    · cases e
  | pop k t =>
    obtain ⟨x, hx, -, e⟩ := onExec_ok e
    simp only at e
    split at e
    · rename_i hp
      split at e
      · rename_i m ms hms
        injection e with e; subst e
        refine ⟨fun l hl => ?_, fun ho l hl => ?_⟩
        · by_cases hk : l = T.leader x.sup
          · exact h.inb l (by rw [hk, hms]; simp)
          · simp only [upd, if_neg hk] at hl; exact h.inb l hl
        · by_cases hk : l = T.leader x.sup
          · exact ⟨x, by rw [hk, leader_strand, hi.ex k x hx]; exact hx, hk.symm⟩
          · simp only [upd, if_neg hk] at hl; exact h.que ho l hl
      · rename_i hin
        split at e
        · injection e with e; subst e; exact h
        · split at e
          · rename_i hq; exact h.finish hx (fun _ => hin) hq e
          · injection e with e; subst e
            exact h.setPc hx rfl _ (fun _ => hin)
    · cases e
  | dispatch k subs alive =>
    obtain ⟨x, hx, -, e⟩ := onExec_ok e
    split at e
    · rename_i hp; exact h.dispatch hx hp e
    · cases e
  | call k =>
    obtain ⟨x, hx, -, e⟩ := onExec_ok e
    split at e
    · rename_i a hs hp
      injection e with e; subst e
      exact (h.setPc (e' := x) hx rfl (.handler a hs) (by rw [hp]; intro hx; cases hx)).keep rfl rfl (fun _ _ => id) (fun _ e he => ⟨e, he, rfl, id⟩)
    · rename_i hp
      injection e with e; subst e
      exact h.setPc hx rfl _ (by rw [hp]; intro hx; cases hx)
    · cases e
  | handled k =>
    obtain ⟨x, hx, -, e⟩ := onExec_ok e
    split at e
    · rename_i a hs hp
      injection e with e; subst e
      exact h.setPc hx rfl _ (by rw [hp]; intro hx; cases hx)
    · cases e
  | «return» k t poll =>
    obtain ⟨x, hx, -, e⟩ := onExec_ok e
    split at e
    · rename_i hp
      split at e
      · injection e with e; subst e
        exact h.setPc (e' := { x with last := true }) hx rfl .polling (by rw [hp.1]; intro hx; cases hx)
      · exact h.finish hx (by rw [hp.1]; intro hx; cases hx) hp.2 e
    · cases e
  | leave k t =>
    obtain ⟨x, hx, -, e⟩ := onExec_ok e
    split at e
    · rename_i hp
      split at e
      · rename_i hq; exact h.finish hx (by rw [hp]; intro hx; cases hx) hq e
      · injection e with e; subst e
        exact h.setPc hx rfl _ (by rw [hp]; intro hx; cases hx)
    · cases e
  | destroy s =>
    simp only [Strands.step] at e
    split at e
    · injection e with e; subst e; exact h.keep rfl rfl (fun _ _ => id) (fun _ e he => ⟨e, he, rfl, id⟩)
    · cases e

theorem Rest.run {T : Topo} {ls : List Label} : ∀ {σ σ' : State}, Inv T σ → Rest T σ → Strands.run T σ ls = .ok σ' → Rest T σ' := by
  induction ls with
  | nil => intro σ σ' hi h e; simp [Strands.run] at e; exact e ▸ h
  | cons l ls ih =>
    intro σ σ' hi h e
    simp only [Strands.run] at e
    split at e
    · cases e
    · rename_i σ₁ e₁; exact ih (hi.step e₁) (h.step hi e₁) e

/-- **C65** no message from another locality is left behind: when a strand has neither closures nor executes one, the inbound queues of all its
localities are empty. -/
theorem C65_inbound_taken {T : Topo} {ls : List Label} {σ : State} (h : run T State.init ls = .ok σ) {k l : Nat} (hk : T.strand l = k)
    (ht : σ.tasks k = []) (he : σ.exec k = none) : σ.inbound l = [] := by
  have hr := Rest.run (Inv.init T) (Rest.init T) h
  by_cases hl : σ.inbound l = []
  · exact hl
  · subst hk
    rcases hr.inb l hl with ⟨s, hs, -⟩ | ⟨e, hs, -⟩
    · rw [ht] at hs; cases hs
    · rw [he] at hs; cases hs

/-- **C65** (partial: only if the supervisors of a strand are one group) .. and so are its message queues. -/
theorem C65_nothing_left_partial {T : Topo} (ho : OneGroup T) {ls : List Label} {σ : State} (h : run T State.init ls = .ok σ) {k l : Nat}
    (hk : T.strand l = k) (ht : σ.tasks k = []) (he : σ.exec k = none) : σ.inbound l = [] ∧ σ.queue l = [] := by
  refine ⟨C65_inbound_taken h hk ht he, ?_⟩
  have hr := Rest.run (Inv.init T) (Rest.init T) h
  by_cases hl : σ.queue l = []
  · exact hl
  · subst hk
    obtain ⟨e, hs, -⟩ := hr.que ho l hl
    rw [he] at hs; cases hs

/-! ## Every handler that is subscribed to a message is called once -/

/-- the number of a message; that of a foreign call is the one of its original message -/
def Msg.num : Msg → Nat
  | .user m _ => m
  | .hcall m _ => m

/-- how often actor `a` is among the subscribers of message `m` when it is dispatched -/
def owes (T : Topo) (m a : Nat) (σ : State) : Label → Nat
  | .dispatch k subs _ =>
    match σ.exec k with
    | some e =>
      match σ.queue (T.leader e.sup) with
      | .user m' s :: _ => if m' = m ∧ T.strand s = k then subs.count a else 0
      | _ => 0
    | none => 0
  | _ => 0

/-- how often a foreign call of message `m` for actor `a` finds that the actor is not there or not subscribed any more -/
def drops (T : Topo) (m a : Nat) (σ : State) : Label → Nat
  | .dispatch k _ false =>
    match σ.exec k with
    | some e => if (σ.queue (T.leader e.sup)).head? = some (.hcall m a) then 1 else 0
    | none => 0
  | _ => 0

/-- .. in a whole run -/
def total (T : Topo) (f : State → Label → Nat) : State → List Label → Nat
  | _, [] => 0
  | σ, l :: ls => f σ l + (match step T σ l with | .ok σ' => total T f σ' ls | .error _ => 0)

/-- how often the handler of actor `a` has been called for message `m` -/
def calledFor (m a : Nat) : List Ev → Nat
  | [] => 0
  | .handled b msg :: l => (if b = a ∧ msg.num = m then 1 else 0) + calledFor m a l
  | _ :: l => calledFor m a l

/-- the handlers still to be called -/
def Pc.rest : Pc → List Nat
  | .deliver hs => hs
  | .handler _ hs => hs
  | _ => []

/-- calls of actor `a` for message `m` that have yet to come: in the delivery that its strand executes .. -/
def toCome (T : Topo) (m a : Nat) (σ : State) : Nat :=
  match σ.exec (T.strand (T.supOf a)) with
  | some e => if (σ.cur (T.strand (T.supOf a))).num = m then e.pc.rest.count a else 0
  | none => 0

/-- .. and as foreign calls in the queues of its locality -/
def underway (T : Topo) (m a : Nat) (σ : State) : Nat :=
  (σ.queue (T.leader (T.supOf a))).count (.hcall m a) + (σ.inbound (T.leader (T.supOf a))).count (.hcall m a)

/-- foreign calls are made by the delivery only, users send other messages -/
def Label.plain : Label → Prop
  | .send _ (.hcall _ _) => False
  | .enqueue _ (.hcall _ _) => False
  | _ => True

/-- foreign calls are in the queues of the locality of their actor -/
def Home (T : Topo) (σ : State) : Prop := ∀ l m a, (.hcall m a ∈ σ.queue l ∨ .hcall m a ∈ σ.inbound l) → l = T.leader (T.supOf a)

theorem Home.init (T : Topo) : Home T State.init := by simp [Home, State.init]

theorem enqueue_fields {T : Topo} {σ σ' : State} {s : Nat} {m : Msg} (e : enqueue T s m σ = .ok σ') :
    σ'.exec = σ.exec ∧ σ'.cur = σ.cur ∧ σ'.queue = σ.queue ∧ σ'.log = σ.log ∧
      σ'.inbound = upd σ.inbound (T.leader s) (σ.inbound (T.leader s) ++ [m]) := by
  unfold enqueue at e
  split at e
  · injection e with e; subst e; exact ⟨rfl, rfl, rfl, rfl, rfl⟩
  · cases e

theorem Home.enqueue {T : Topo} {σ σ' : State} (h : Home T σ) {s : Nat} {m : Msg} (hm : ∀ n a, m = .hcall n a → s = T.supOf a)
    (e : enqueue T s m σ = .ok σ') : Home T σ' := by
  obtain ⟨-, -, h1, -, h2⟩ := enqueue_fields e
  intro l n a hl
  rw [h1, h2] at hl
  rcases hl with hl | hl
  · exact h l n a (.inl hl)
  · simp only [upd] at hl
    split at hl
    · rename_i hk
      rcases List.mem_append.1 hl with hl | hl
      · rw [hk]; exact h _ n a (.inr hl)
      · simp at hl; rw [hk, hm n a hl.symm]
    · exact h l n a (.inr hl)

/-- the external handlers: one foreign call each -/
theorem deliverExternal_fields {T : Topo} {m : Nat} : ∀ {l : List Nat} {σ σ' : State}, deliverExternal T m l σ = .ok σ' →
    σ'.exec = σ.exec ∧ σ'.cur = σ.cur ∧ σ'.queue = σ.queue ∧ σ'.log = σ.log ∧ (Home T σ → Home T σ') ∧
      ∀ n a, (σ'.inbound (T.leader (T.supOf a))).count (.hcall n a) = (σ.inbound (T.leader (T.supOf a))).count (.hcall n a) + if m = n then l.count a else 0 := by
  intro l
  induction l with
  | nil => intro σ σ' e; simp [deliverExternal] at e; subst e; simp
  | cons b l ih =>
    intro σ σ' e
    simp only [deliverExternal] at e
    split at e
    · cases e
    · rename_i σ₁ e₁
      obtain ⟨h1, h2, h3, h4, h5, h6⟩ := ih e
      obtain ⟨k1, k2, k3, k4, k5⟩ := enqueue_fields e₁
      refine ⟨h1.trans k1, h2.trans k2, h3.trans k3, h4.trans k4, fun hh => h5 (hh.enqueue (by intro n a ha; cases ha; rfl) e₁), ?_⟩
      intro n a
      rw [h6 n a, k5]
      simp only [upd]
      by_cases hb : b = a
      · subst hb
        by_cases hm : m = n
        · subst hm; simp; omega
        · simp [hm]
      · have : Msg.hcall m b ≠ Msg.hcall n a := by intro h; cases h; exact hb rfl
        by_cases hl : T.leader (T.supOf a) = T.leader (T.supOf b)
        · rw [if_pos hl, List.count_append, List.count_cons_of_ne hb, ← hl]; simp [this]
        · rw [if_neg hl, List.count_cons_of_ne hb]

/-- what is accounted for -/
def account (T : Topo) (m a : Nat) (σ : State) : Nat := toCome T m a σ + underway T m a σ + calledFor m a σ.log

theorem account_congr {T : Topo} {m a : Nat} {σ σ' : State} (h1 : toCome T m a σ' = toCome T m a σ) (h2 : σ'.queue = σ.queue)
    (h3 : σ'.inbound = σ.inbound) (h4 : calledFor m a σ'.log = calledFor m a σ.log) : account T m a σ' = account T m a σ := by
  simp only [account, underway, h1, h2, h3, h4]

theorem toCome_congr {T : Topo} {m a : Nat} {σ σ' : State} (h1 : σ'.exec = σ.exec) (h2 : σ'.cur = σ.cur) : toCome T m a σ' = toCome T m a σ := by
  simp only [toCome, h1, h2]

/-- another program counter with the same handlers to be called -/
theorem toCome_setPc {T : Topo} {m a : Nat} {σ σ' : State} {k : Nat} {e e' : Exec} {p : Pc} (he : σ.exec k = some e) (h1 : σ'.exec = (setPc k e' p σ).exec)
    (h2 : σ'.cur = σ.cur) (hp : p.rest = e.pc.rest) : toCome T m a σ' = toCome T m a σ := by
  simp only [toCome, h1, h2, setPc, upd]
  by_cases hk : T.strand (T.supOf a) = k
  · simp only [hk, if_pos, he, hp]
  · simp only [if_neg hk]

theorem toCome_finish {T : Topo} {m a : Nat} {σ σ' : State} {k t : Nat} {e : Exec} (he : σ.exec k = some e) (hp : e.pc.rest = [])
    (h : finish k t σ = .ok σ') : toCome T m a σ' = toCome T m a σ ∧ σ'.queue = σ.queue ∧ σ'.inbound = σ.inbound ∧ σ'.log = σ.log := by
  unfold finish at h
  split at h
  · injection h with h; subst h
    refine ⟨?_, rfl, rfl, rfl⟩
    simp only [toCome, upd]
    by_cases hk : T.strand (T.supOf a) = k
    · simp only [hk, if_pos, he, hp]; simp
    · simp only [if_neg hk]
  · cases h

theorem count_filter_pos {p : Nat → Bool} {a : Nat} (h : p a = true) (l : List Nat) : (l.filter p).count a = l.count a := by
  induction l with
  | nil => rfl
  | cons b l ih =>
    by_cases hb : b = a
    · subst hb; rw [List.filter_cons_of_pos h]; simp [ih]
    · rw [List.count_cons_of_ne hb]
      cases hp : p b
      · rw [List.filter_cons_of_neg (by simp [hp])]; exact ih
      · rw [List.filter_cons_of_pos hp, List.count_cons_of_ne hb]; exact ih

theorem count_filter_neg {p : Nat → Bool} {a : Nat} (h : p a = false) (l : List Nat) : (l.filter p).count a = 0 :=
  List.count_eq_zero.2 (by intro hm; rw [(List.mem_filter.1 hm).2] at h; cases h)

theorem account_dispatch {T : Topo} {σ σ' : State} (hi : Inv T σ) (hh : Home T σ) {k : Nat} {e : Exec} (he : σ.exec k = some e) (hp : e.pc = .proc)
    {subs : List Nat} {alive : Bool} (h' : dispatch T k e subs alive σ = .ok σ') (m a : Nat) :
    Home T σ' ∧ account T m a σ' + drops T m a σ (.dispatch k subs alive) = account T m a σ + owes T m a σ (.dispatch k subs alive) := by
  have hl : T.strand (T.leader e.sup) = k := by rw [leader_strand]; exact hi.ex k e he
  have h0 : toCome T m a σ = 0 ∨ T.strand (T.supOf a) ≠ k := by
    by_cases hk : T.strand (T.supOf a) = k
    · left; simp only [toCome, hk, he, hp, Pc.rest]; simp
    · exact .inr hk
  unfold dispatch at h'
  simp only at h'
  split at h'
  · cases h'
  · rename_i msg q hq
    have hht : Home T { σ with queue := upd σ.queue (T.leader e.sup) q, cur := upd σ.cur k msg } := by
      intro l n b hb
      rcases hb with hb | hb
      · simp only [upd] at hb
        split at hb
        · rename_i hk; rw [hk]; exact hh _ n b (.inl (by rw [hq]; exact List.mem_cons_of_mem _ hb))
        · exact hh l n b (.inl hb)
      · exact hh l n b (.inr hb)
    split at h'
    · rename_i hd
      split at h'
      · rename_i _ n s
        split at h'
        · cases h'
        · rename_i σ₁ e₁
          injection h' with h'; subst h'
          obtain ⟨k1, k2, k3, k4, k5, k6⟩ := deliverExternal_fields e₁
          refine ⟨k5 hht, ?_⟩
          have hs : T.strand s = k := by rw [← hl]; exact hd
          have ho : owes T m a σ (.dispatch k subs alive) = if n = m then subs.count a else 0 := by
            simp only [owes, he, hq, hs]; simp
          have hdr : drops T m a σ (.dispatch k subs alive) = 0 := by
            cases alive <;> simp [drops, he, hq]
          have hu : underway T m a (setPc k e (.deliver (subs.filter (fun a => T.strand (T.supOf a) = T.strand (T.leader e.sup)))) σ₁) =
              underway T m a σ + if n = m then (subs.filter (fun a => T.strand (T.supOf a) ≠ T.strand (T.leader e.sup))).count a else 0 := by
            simp only [underway, setPc, k3, k6 m a, upd]
            by_cases hk : T.leader (T.supOf a) = T.leader e.sup
            · rw [if_pos hk, hk, hq, List.count_cons_of_ne (by simp)]; omega
            · rw [if_neg hk]; omega
          have hc : toCome T m a (setPc k e (.deliver (subs.filter (fun a => T.strand (T.supOf a) = T.strand (T.leader e.sup)))) σ₁) =
              toCome T m a σ + if n = m then (subs.filter (fun a => T.strand (T.supOf a) = T.strand (T.leader e.sup))).count a else 0 := by
            by_cases hk : T.strand (T.supOf a) = k
            · have h0' := h0.resolve_right (by simp [hk])
              rw [h0']
              simp only [toCome, setPc, upd, k1, k2, hk, if_pos, Pc.rest, Msg.num]
              simp
            · have : (subs.filter (fun a => T.strand (T.supOf a) = T.strand (T.leader e.sup))).count a = 0 :=
                count_filter_neg (by simp only [hl]; simpa using hk) subs
              rw [this]
              simp only [toCome, setPc, upd, k1, k2, if_neg hk]
              simp
          simp only [account, hu, hc, hdr, ho]
          have hlog : (setPc k e (.deliver (subs.filter (fun a => T.strand (T.supOf a) = T.strand (T.leader e.sup)))) σ₁).log = σ.log := k4
          rw [hlog]
          by_cases hnm : n = m
          · simp only [if_pos hnm]
            by_cases hk : T.strand (T.supOf a) = k
            · rw [count_filter_pos (by simpa [hl] using hk), count_filter_neg (by simp [hl, hk])]; omega
            · rw [count_filter_neg (by simpa [hl] using hk), count_filter_pos (by simp [hl, hk])]; omega
          · simp only [if_neg hnm]; omega
      · rename_i _ n b
        injection h' with h'; subst h'
        refine ⟨hht, ?_⟩
        have ho : owes T m a σ (.dispatch k subs alive) = 0 := by simp only [owes, he, hq]
        have hb : T.leader e.sup = T.leader (T.supOf b) := hh _ n b (.inl (by rw [hq]; simp))
        have hsb : T.strand (T.supOf b) = k := by rw [← leader_strand T (T.supOf b), ← hb, hl]
        have hdr : drops T m a σ (.dispatch k subs alive) = if alive = false ∧ n = m ∧ b = a then 1 else 0 := by
          cases alive <;> simp [drops, he, hq]
        have hu : underway T m a σ = (if n = m ∧ b = a then 1 else 0) +
            underway T m a (setPc k e (.deliver (if alive then [b] else [])) { σ with queue := upd σ.queue (T.leader e.sup) q, cur := upd σ.cur k (.hcall n b) }) := by
          simp only [underway, setPc, upd]
          by_cases hk : T.leader (T.supOf a) = T.leader e.sup
          · rw [if_pos hk, hk, hq, List.count_cons]
            simp only [beq_iff_eq, Msg.hcall.injEq]; omega
          · have : ¬ (n = m ∧ b = a) := by rintro ⟨-, rfl⟩; exact hk hb.symm
            rw [if_neg hk, if_neg this]; omega
        have hc : toCome T m a (setPc k e (.deliver (if alive then [b] else [])) { σ with queue := upd σ.queue (T.leader e.sup) q, cur := upd σ.cur k (.hcall n b) }) =
            toCome T m a σ + if alive = true ∧ n = m ∧ b = a then 1 else 0 := by
          by_cases hk : T.strand (T.supOf a) = k
          · have h0' := h0.resolve_right (by simp [hk])
            rw [h0']
            simp only [toCome, setPc, upd, hk, if_pos, Pc.rest, Msg.num]
            cases alive
            · simp
            · by_cases hnm : n = m
              · simp [hnm, List.count_cons]
              · simp [hnm]
          · have : ¬ (alive = true ∧ n = m ∧ b = a) := by rintro ⟨-, -, rfl⟩; exact hk hsb
            rw [if_neg this]
            simp only [toCome, setPc, upd, if_neg hk]
            rfl
        have hlog : (setPc k e (.deliver (if alive then [b] else [])) { σ with queue := upd σ.queue (T.leader e.sup) q, cur := upd σ.cur k (.hcall n b) }).log = σ.log := rfl
        simp only [account, hc, hdr, ho, hlog]
        rw [hu]
        cases alive <;> simp <;> omega
    · rename_i hd
      have hnc : ∀ n b, msg ≠ .hcall n b := by
        intro n b hb
        subst hb
        have hb : T.leader e.sup = T.leader (T.supOf b) := hh _ n b (.inl (by rw [hq]; simp))
        exact hd (by show T.strand (T.supOf b) = _; rw [hb, leader_strand])
      cases msg with
      | hcall n b => exact absurd rfl (hnc n b)
      | user n s =>
        obtain ⟨k1, k2, k3, k4, k5⟩ := enqueue_fields h'
        refine ⟨hht.enqueue (by intro n b hb; cases hb) h', ?_⟩
        have ho : owes T m a σ (.dispatch k subs alive) = 0 := by
          have hs : T.strand s ≠ k := by rw [← hl]; exact hd
          simp only [owes, he, hq]; rw [if_neg (by simp [hs])]
        have hdr : drops T m a σ (.dispatch k subs alive) = 0 := by cases alive <;> simp [drops, he, hq]
        have hu : underway T m a σ' = underway T m a σ := by
          simp only [underway, k3, k5, upd]
          congr 1
          · by_cases hk : T.leader (T.supOf a) = T.leader e.sup
            · rw [if_pos hk, hk, hq, List.count_cons_of_ne (by simp)]
            · rw [if_neg hk]
          · by_cases hk : T.leader (T.supOf a) = T.leader s
            · rw [if_pos (by exact hk), List.count_append, show T.leader (Msg.dest T (.user n s)) = T.leader (T.supOf a) from hk.symm]; simp
            · rw [if_neg (by exact hk)]
        have hc : toCome T m a σ' = toCome T m a σ := by
          simp only [toCome, k1, k2, upd]
          by_cases hk : T.strand (T.supOf a) = k
          · simp only [hk, if_pos, he, hp, Pc.rest]; simp
          · simp only [if_neg hk]
        simp only [account, hu, hc, ho, hdr, k4]

theorem Home.congr {T : Topo} {σ σ' : State} (h : Home T σ) (h1 : σ'.queue = σ.queue) (h2 : σ'.inbound = σ.inbound) : Home T σ' := by
  unfold Home; rw [h1, h2]; exact h

theorem account_enqueue {T : Topo} {σ σ' : State} {s n s' : Nat} (e : enqueue T s (.user n s') σ = .ok σ') (m a : Nat) :
    account T m a σ' = account T m a σ := by
  obtain ⟨k1, k2, k3, k4, k5⟩ := enqueue_fields e
  have : underway T m a σ' = underway T m a σ := by
    simp only [underway, k3, k5, upd]
    by_cases hk : T.leader (T.supOf a) = T.leader s
    · rw [if_pos hk, List.count_append, hk]; simp
    · rw [if_neg hk]
  simp only [account, this, toCome_congr k1 k2, k4]

theorem account_step {T : Topo} {σ σ' : State} (hi : Inv T σ) (hh : Home T σ) {l : Label} (hpl : l.plain) (e : step T σ l = .ok σ') (m a : Nat) :
    Home T σ' ∧ account T m a σ' + drops T m a σ l = account T m a σ + owes T m a σ l := by
  cases l with
  | send k msg =>
    obtain ⟨x, hx, -, e⟩ := onExec_ok e
    split at e
    · rename_i b hb
      unfold put at e
      simp only at e
      split at e
      · injection e with e; subst e
        cases msg with
        | hcall n c => exact absurd hpl (by simp [Label.plain])
        | user n s =>
          constructor
          · intro l n' c hc
            rcases hc with hc | hc
            · simp only [upd] at hc
              split at hc
              · rename_i hk
                rcases List.mem_append.1 hc with hc | hc
                · rw [hk]; exact hh _ n' c (.inl hc)
                · simp at hc
              · exact hh l n' c (.inl hc)
            · exact hh l n' c (.inr hc)
          · have : underway T m a { σ with queue := upd σ.queue (T.leader (T.supOf b)) (σ.queue (T.leader (T.supOf b)) ++ [.user n s]) } = underway T m a σ := by
              simp only [underway, upd]
              by_cases hk : T.leader (T.supOf a) = T.leader (T.supOf b)
              · rw [if_pos hk, List.count_append, hk]; simp
              · rw [if_neg hk]
            simp only [account, this]
            rfl
      · cases e
    · cases e
  | begin c b => injection e with e; subst e; exact ⟨hh.congr rfl rfl, rfl⟩
  | complete c b ec =>
    simp only [Strands.step] at e
    split at e
    · unfold forward at e
      simp only at e
      split at e
      · cases e
      · split at e <;> injection e with e <;> subst e <;> exact ⟨hh.congr rfl rfl, rfl⟩
    · cases e
  | expire b => injection e with e; subst e; exact ⟨hh.congr rfl rfl, rfl⟩
  | enqueue s msg =>
    cases msg with
    | hcall n c => exact absurd hpl (by simp [Label.plain])
    | user n s' => exact ⟨hh.enqueue (by intro n b hb; cases hb) e, account_enqueue e m a⟩
  | take k t there =>
    simp only [Strands.step] at e
    split at e
    · rename_i task ts _ he hts
      injection e with e
      subst e
      have key : ∀ σ' : State, (σ'.exec = σ.exec ∨ ∃ x, σ'.exec = upd σ.exec k (some x) ∧ x.pc.rest = []) → σ'.cur = σ.cur → σ'.queue = σ.queue →
          σ'.inbound = σ.inbound → calledFor m a σ'.log = calledFor m a σ.log → Home T σ' ∧ account T m a σ' = account T m a σ := by
        intro σ' h1 h2 h3 h4 h5
        refine ⟨hh.congr h3 h4, account_congr ?_ h3 h4 h5⟩
        rcases h1 with h1 | ⟨x, h1, hx⟩
        · exact toCome_congr h1 h2
        · simp only [toCome, h1, h2, upd]
          by_cases hk : T.strand (T.supOf a) = k
          · simp only [hk, if_pos, he, hx]; simp
          · simp only [if_neg hk]
      cases task with
      | fwd c b err => exact key _ (.inr ⟨_, rfl, rfl⟩) rfl rfl rfl rfl
      | timer b =>
        simp only [start]
        split
        · exact key _ (.inr ⟨_, rfl, rfl⟩) rfl rfl rfl rfl
        · exact key _ (.inl rfl) rfl rfl rfl rfl
      | process s => exact key _ (.inr ⟨_, rfl, rfl⟩) rfl rfl rfl rfl
    · cases e
  | back k =>
    obtain ⟨x, hx, -, e⟩ := onExec_ok e
    split at e
    · rename_i b hp
      injection e with e; subst e
      exact ⟨hh.congr rfl rfl, account_congr (toCome_setPc hx rfl rfl (by rw [hp]; split <;> rfl)) rfl rfl rfl⟩
    · cases e
  | pop k t =>
    obtain ⟨x, hx, -, e⟩ := onExec_ok e
    simp only at e
    split at e
    · rename_i hp
      have hr : x.pc.rest = [] := by rcases hp with hp | hp <;> rw [hp] <;> rfl
      split at e
      · rename_i y ys hys
        injection e with e; subst e
        constructor
        · intro l n c hc
          rcases hc with hc | hc
          · simp only [upd] at hc
            split at hc
            · rename_i hk
              rcases List.mem_append.1 hc with hc | hc
              · rw [hk]; exact hh _ n c (.inl hc)
              · simp at hc; rw [hk]; exact hh _ n c (.inr (by rw [hys, hc]; simp))
            · exact hh l n c (.inl hc)
          · simp only [upd] at hc
            split at hc
            · rename_i hk; rw [hk]; exact hh _ n c (.inr (by rw [hys]; exact List.mem_cons_of_mem _ hc))
            · exact hh l n c (.inr hc)
        · have : underway T m a { σ with inbound := upd σ.inbound (T.leader x.sup) ys, queue := upd σ.queue (T.leader x.sup) (σ.queue (T.leader x.sup) ++ [y]) } = underway T m a σ := by
            simp only [underway, upd]
            by_cases hk : T.leader (T.supOf a) = T.leader x.sup
            · rw [if_pos hk, if_pos hk, List.count_append, hk, hys, List.count_cons, List.count_cons]; simp; omega
            · rw [if_neg hk, if_neg hk]
          simp only [account, this]
          rfl
      · split at e
        · injection e with e; subst e; exact ⟨hh, rfl⟩
        · split at e
          · obtain ⟨k1, k2, k3, k4⟩ := toCome_finish (T := T) (m := m) (a := a) hx hr e
            exact ⟨hh.congr k2 k3, account_congr k1 k2 k3 (by rw [k4])⟩
          · injection e with e; subst e
            exact ⟨hh.congr rfl rfl, account_congr (toCome_setPc hx rfl rfl (by rw [hr]; rfl)) rfl rfl rfl⟩
    · cases e
  | dispatch k subs alive =>
    obtain ⟨x, hx, -, e⟩ := onExec_ok e
    split at e
    · rename_i hp; exact account_dispatch hi hh hx hp e m a
    · cases e
  | call k =>
    obtain ⟨x, hx, -, e⟩ := onExec_ok e
    split at e
    · rename_i b hs hp
      injection e with e; subst e
      refine ⟨hh.congr rfl rfl, ?_⟩
      have hb : T.strand (T.supOf b) = k := hi.pc k x hx b (by rw [hp]; simp [Pc.actors])
      simp only [account, drops, owes, Nat.add_zero, calledFor]
      have hu : underway T m a { setPc k x (.handler b hs) σ with log := .handled b (σ.cur k) :: σ.log } = underway T m a σ := rfl
      have hc : toCome T m a σ = toCome T m a { setPc k x (.handler b hs) σ with log := .handled b (σ.cur k) :: σ.log } + if b = a ∧ (σ.cur k).num = m then 1 else 0 := by
        simp only [toCome, setPc, upd]
        by_cases hk : T.strand (T.supOf a) = k
        · simp only [hk, if_pos, hx, hp, Pc.rest, List.count_cons, beq_iff_eq]
          by_cases hm : (σ.cur k).num = m
          · simp [hm]
          · simp [hm]
        · have : ¬ (b = a ∧ (σ.cur k).num = m) := by rintro ⟨rfl, -⟩; exact hk hb
          rw [if_neg this]
          simp only [if_neg hk]
          rfl
      have key : ∀ A B C U i : Nat, A = B + i → B + U + (i + C) = A + U + C := by intros; omega
      rw [hu]
      exact key _ _ _ _ _ hc
    · rename_i hp
      injection e with e; subst e
      exact ⟨hh.congr rfl rfl, account_congr (toCome_setPc hx rfl rfl (by rw [hp]; rfl)) rfl rfl rfl⟩
    · cases e
  | handled k =>
    obtain ⟨x, hx, -, e⟩ := onExec_ok e
    split at e
    · rename_i b hs hp
      injection e with e; subst e
      exact ⟨hh.congr rfl rfl, account_congr (toCome_setPc hx rfl rfl (by rw [hp]; rfl)) rfl rfl rfl⟩
    · cases e
  | «return» k t poll =>
    obtain ⟨x, hx, -, e⟩ := onExec_ok e
    split at e
    · rename_i hp
      have hr : x.pc.rest = [] := by rw [hp.1]; rfl
      split at e
      · injection e with e; subst e
        exact ⟨hh.congr rfl rfl, account_congr (toCome_setPc hx rfl rfl (by rw [hr]; rfl)) rfl rfl rfl⟩
      · obtain ⟨k1, k2, k3, k4⟩ := toCome_finish (T := T) (m := m) (a := a) hx hr e
        exact ⟨hh.congr k2 k3, account_congr k1 k2 k3 (by rw [k4])⟩
    · cases e
  | leave k t =>
    obtain ⟨x, hx, -, e⟩ := onExec_ok e
    split at e
    · rename_i hp
      have hr : x.pc.rest = [] := by rw [hp]; rfl
      split at e
      · obtain ⟨k1, k2, k3, k4⟩ := toCome_finish (T := T) (m := m) (a := a) hx hr e
        exact ⟨hh.congr k2 k3, account_congr k1 k2 k3 (by rw [k4])⟩
      · injection e with e; subst e
        exact ⟨hh.congr rfl rfl, account_congr (toCome_setPc hx rfl rfl (by rw [hr]; rfl)) rfl rfl rfl⟩
    · cases e
  | destroy s =>
    simp only [Strands.step] at e
    split at e
    · injection e with e; subst e; exact ⟨hh.congr rfl rfl, rfl⟩
    · cases e

/-- **C65** every actor subscribed to a message when it is dispatched is called for it exactly once, directly or by a foreign call in its own strand: as
often as it was a subscriber, it has been called, the foreign call has found that it is not there or not subscribed any more (C07), or the call is
still to come, in the delivery that its strand executes or as a foreign call in the queues of its locality. -/
theorem C65_each_once {T : Topo} {ls : List Label} {σ : State} (h : run T State.init ls = .ok σ) (hpl : ∀ l ∈ ls, l.plain) (m a : Nat) :
    total T (owes T m a) State.init ls = calledFor m a σ.log + total T (drops T m a) State.init ls + toCome T m a σ + underway T m a σ := by
  have key : ∀ (ls : List Label) (σ₀ : State), Inv T σ₀ → Home T σ₀ → run T σ₀ ls = .ok σ → (∀ l ∈ ls, l.plain) →
      account T m a σ + total T (drops T m a) σ₀ ls = account T m a σ₀ + total T (owes T m a) σ₀ ls := by
    intro ls
    induction ls with
    | nil => intro σ₀ _ _ h _; simp [run] at h; subst h; rfl
    | cons l ls ih =>
      intro σ₀ hi hh h hpl
      simp only [run] at h
      split at h
      · cases h
      · rename_i σ₁ e₁
        have h1 := account_step hi hh (hpl l (by simp)) e₁ m a
        have h2 := ih σ₁ (hi.step e₁) h1.1 h (fun l hl => hpl l (by simp [hl]))
        simp only [total, e₁]
        omega
  have := key ls State.init (Inv.init T) (Home.init T) h hpl
  have h0 : account T m a State.init = 0 := by simp [account, toCome, underway, State.init, calledFor]
  rw [h0] at this
  simp only [account] at this
  omega

/-- **C65** (partial: only if the supervisors of a strand are one group) .. and when its strand has nothing more to do no call is missing. -/
theorem C65_each_called_partial {T : Topo} (ho : OneGroup T) {ls : List Label} {σ : State} (h : run T State.init ls = .ok σ) (hpl : ∀ l ∈ ls, l.plain)
    (m a : Nat) (ht : σ.tasks (T.strand (T.supOf a)) = []) (he : σ.exec (T.strand (T.supOf a)) = none) :
    total T (owes T m a) State.init ls = calledFor m a σ.log + total T (drops T m a) State.init ls := by
  have h1 := C65_each_once h hpl m a
  have h2 := C65_nothing_left_partial ho h (l := T.leader (T.supOf a)) rfl (by rw [leader_strand]; exact ht) (by rw [leader_strand]; exact he)
  rw [h1]
  simp [toCome, underway, he, h2.1, h2.2]

/-! ## Cases -/

/-- supervisor 0 in strand 0, all others below each other in strand 1 -/
def chain : Topo where
  strand s := if s = 0 then 0 else 1
  parent s := if s = 0 then none else some (s - 1)
  supOf a := a
  older := by
    intro s p h
    split at h
    · cases h
    · injection h with h; omega

theorem chain_leader : ∀ s, chain.leader s = if s = 0 then 0 else 1 := by
  intro s
  induction s with
  | zero => rfl
  | succ s ih =>
    rw [leader_eq]
    cases s with
    | zero => rfl
    | succ s => simpa [chain] using ih

theorem chain_oneGroup : OneGroup chain := by
  intro s s' h
  rw [chain_leader, chain_leader]
  simpa [chain] using h

/-- message 6 to supervisor 0 has two subscribers, actor 0 and, in the other strand, actor 2; message 9, sent by actor 2, has one -/
def script2 : List Label :=
  [.enqueue 0 (.user 6 0), .take 0 1 true, .pop 0 1, .pop 0 1, .dispatch 0 [2, 0] true, .call 0, .handled 0, .call 0, .return 0 1 false,
   .take 1 0 true, .pop 1 0, .pop 1 0, .dispatch 1 [] true, .call 1, .send 1 (.user 9 3), .handled 1, .call 1, .dispatch 1 [3] true, .call 1, .handled 1,
   .call 1, .return 1 0 false]

example : (∀ l ∈ script2, l.plain) ∧ ∃ σ, run chain State.init script2 = .ok σ ∧ (σ.tasks 1 = [] ∧ σ.exec 1 = none ∧
    σ.log = [.handled 3 (.user 9 3), .handled 2 (.hcall 6 2), .handled 0 (.user 6 0)]) :=
  ⟨by simp [script2, Label.plain], ok_of rfl⟩

example : total chain (owes chain 6 2) State.init script2 = 1 ∧ total chain (owes chain 9 3) State.init script2 = 1 ∧
    total chain (drops chain 6 2) State.init script2 = 0 := ⟨rfl, rfl, rfl⟩

/-- in between the foreign call is underway -/
example : ∃ σ, run chain State.init (script2.take 9) = .ok σ ∧ (underway chain 6 2 σ = 1 ∧ σ.tasks 1 = [.process 2]) := ok_of rfl

/-- .. and lost if the actor is not there -/
example : total chain (drops chain 6 2) State.init (script2.take 12 ++ [.dispatch 1 [] false]) = 1 := rfl

end Verif.Strands
