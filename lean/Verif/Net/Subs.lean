import Verif.Net.Lemmas

/-!
# Invariants of the subscriptions between localities
-/

namespace Verif.Net
open Verif

/-! ## the tables -/

structure InvT (c : Cfg) (s : State) : Prop where
  intIff : ∀ h addr, c.locD addr = c.locA h.actor → (h ∈ (s.subs addr h.ty).int ↔ (s.points.find (h, addr)).isSome)
  intTy : ∀ h addr ty, h ∈ (s.subs addr ty).int → h.ty = ty ∧ c.locD addr = c.locA h.actor
  extTy : ∀ h addr ty, h ∈ (s.subs addr ty).ext → h.ty = ty ∧ (h, addr) ∈ s.foreign
  extIff : ∀ h addr, (h, addr) ∈ s.foreign → h ∈ (s.subs addr h.ty).ext ∧ c.locD addr ≠ c.locA h.actor
  intN : ∀ addr ty, (s.subs addr ty).int.Nodup
  extN : ∀ addr ty, (s.subs addr ty).ext.Nodup
  forN : s.foreign.Nodup

theorem InvT.of {c : Cfg} {s s' : State} (h : InvT c s) (h1 : s'.subs = s.subs) (h2 : s'.points = s.points) (h3 : s'.foreign = s.foreign) : InvT c s' := by
  obtain ⟨n, q, i, sb, p, f, al, st, lg⟩ := s'
  simp only at h1 h2 h3
  subst h1 h2 h3
  exact ⟨h.intIff, h.intTy, h.extTy, h.extIff, h.intN, h.extN, h.forN⟩

/-! ## the protocol messages -/

/-- what the message does to the remote entry of `(h, addr)`: creates it (`true`) or removes it -/
def protoOp (h : Handler) (addr : Nat) (m : Msg) : Option Bool :=
  match m.body with
  | .extSub h' a' => if h' = h ∧ a' = addr then some true else none
  | .commit h' a' => if h' = h ∧ a' = addr then some false else none
  | _ => none

def ops (h : Handler) (addr : Nat) (q : List Msg) : List Bool := q.filterMap (protoOp h addr)

/-- the protocol messages for `(h, addr)` under way, the next one to be handled first -/
def pipe (c : Cfg) (s : State) (h : Handler) (addr : Nat) : List Bool :=
  ops h addr (s.queue (c.locD addr)) ++ ops h addr (s.inb (c.locD addr)) ++ ops h addr (s.queue (c.locA h.actor))

/-- creations and removals alternate and lead from `cur` to `fin` -/
def Chain : Bool → List Bool → Bool → Prop
  | cur, [], fin => cur = fin
  | cur, b :: l, fin => b ≠ cur ∧ Chain b l fin

theorem chain_append (b fin' : Bool) : ∀ (l : List Bool) (cur fin : Bool), Chain cur l fin → b ≠ fin → b = fin' → Chain cur (l ++ [b]) fin' := by
  intro l
  induction l with
  | nil => intro cur fin h1 h2 h3; simp only [Chain] at h1; subst h1; exact ⟨h2, h3⟩
  | cons x l ih => intro cur fin h1 h2 h3; exact ⟨h1.1, ih x fin h1.2 h2 h3⟩

def isUnsub (h : Handler) (addr : Nat) (m : Msg) : Bool :=
  match m.body with
  | .unsub h' a' => decide (h' = h ∧ a' = addr)
  | _ => false

def isProto (m : Msg) (h : Handler) (addr : Nat) : Prop := m.body = .extSub h addr ∨ m.body = .commit h addr

structure InvP (c : Cfg) (s : State) : Prop where
  chain : ∀ h addr, c.locD addr ≠ c.locA h.actor →
    Chain (decide ((h, addr) ∈ s.foreign)) (pipe c s h addr) (s.points.find (h, addr)).isSome
  srcQ : ∀ l m h addr, m ∈ s.queue l → isProto m h addr → c.locD addr ≠ c.locA h.actor ∧ m.dest = c.supAddr (c.locD addr)
  srcI : ∀ l m h addr, m ∈ s.inb l → isProto m h addr → c.locD addr ≠ c.locA h.actor ∧ m.dest = c.supAddr (c.locD addr)
  own : ∀ l m h addr, m ∈ s.queue l ∨ m ∈ s.inb l → isProto m h addr → m.src = some h.actor
  leave : ∀ h addr p, s.points.find (h, addr) = some p →
    (s.queue (c.locA h.actor)).countP (isUnsub h addr) = if p.leaving then 1 else 0
  leaveN : ∀ h addr, s.points.find (h, addr) = none → (s.queue (c.locA h.actor)).countP (isUnsub h addr) = 0
  unQ : ∀ l m h addr, m ∈ s.queue l → m.body = .unsub h addr → l = c.locA h.actor ∧ c.locD m.dest = l
  unI : ∀ l m h addr, m ∈ s.inb l → m.body ≠ .unsub h addr

theorem InvP.of {c : Cfg} {s s' : State} (h : InvP c s) (h0 : s'.queue = s.queue) (h1 : s'.inb = s.inb) (h2 : s'.points = s.points) (h3 : s'.foreign = s.foreign) : InvP c s' := by
  obtain ⟨n, q, i, sb, p, f, al, st, lg⟩ := s'
  simp only at h0 h1 h2 h3
  subst h0 h1 h2 h3
  exact ⟨h.chain, h.srcQ, h.srcI, h.own, h.leave, h.leaveN, h.unQ, h.unI⟩

theorem protoOp_proto {h : Handler} {addr : Nat} {m : Msg} {b : Bool} (hp : protoOp h addr m = some b) :
    isProto m h addr ∧ (b = true → m.body = .extSub h addr) ∧ (b = false → m.body = .commit h addr) := by
  cases hb : m.body with
  | extSub h' a' =>
    simp only [protoOp, hb] at hp
    by_cases hc : h' = h ∧ a' = addr
    · obtain ⟨rfl, rfl⟩ := hc
      simp only [and_self, if_true, Option.some.injEq] at hp
      subst hp
      exact ⟨.inl hb, fun _ => rfl, fun h => absurd h (by simp)⟩
    · rw [if_neg hc] at hp; simp at hp
  | commit h' a' =>
    simp only [protoOp, hb] at hp
    by_cases hc : h' = h ∧ a' = addr
    · obtain ⟨rfl, rfl⟩ := hc
      simp only [and_self, if_true, Option.some.injEq] at hp
      subst hp
      exact ⟨.inr hb, fun h => absurd h (by simp), fun _ => rfl⟩
    · rw [if_neg hc] at hp; simp at hp
  | _ => simp [protoOp, hb] at hp

theorem isUnsub_body {h : Handler} {addr : Nat} {m : Msg} (hp : isUnsub h addr m = true) : m.body = .unsub h addr := by
  cases hb : m.body with
  | unsub h' a' =>
    simp only [isUnsub, hb, decide_eq_true_eq] at hp
    obtain ⟨rfl, rfl⟩ := hp; rfl
  | _ => simp [isUnsub, hb] at hp

theorem ops_append (h : Handler) (addr : Nat) (q q' : List Msg) : ops h addr (q ++ q') = ops h addr q ++ ops h addr q' := by simp [ops]
theorem ops_cons (h : Handler) (addr : Nat) (m : Msg) (q : List Msg) : ops h addr (m :: q) = (protoOp h addr m).toList ++ ops h addr q := by
  simp only [ops, List.filterMap_cons]
  cases protoOp h addr m <;> rfl
theorem ops_single (h : Handler) (addr : Nat) (m : Msg) : ops h addr [m] = (protoOp h addr m).toList := by
  rw [ops_cons]; simp [ops]

/-- pop of a message that is dispatched here -/
theorem pipe_popLocal (c : Cfg) (s : State) (l : Nat) (m : Msg) (rest : List Msg) (h : InvP c s) (hq : s.queue l = m :: rest)
    (hl : c.locD m.dest = l) (hd : Handler) (addr : Nat) (hx : c.locD addr ≠ c.locA hd.actor) :
    pipe c s hd addr = (protoOp hd addr m).toList ++ pipe c (popped l m rest s) hd addr := by
  simp only [pipe, popped]
  by_cases e : c.locD addr = l
  · subst e
    rw [upd_self, upd_ne _ _ _ _ (Ne.symm hx), hq, ops_cons]; simp only [List.append_assoc]
  · rw [upd_ne _ _ _ _ e]
    have hn : protoOp hd addr m = none := by
      cases hp : protoOp hd addr m with
      | none => rfl
      | some b =>
        have := (h.srcQ l m hd addr (by rw [hq]; simp) (protoOp_proto hp).1).2
        rw [this, c.hSup] at hl
        exact absurd hl e
    rw [hn]
    by_cases e2 : c.locA hd.actor = l
    · rw [e2, upd_self, hq, ops_cons, hn]; rfl
    · rw [upd_ne _ _ _ _ e2]; rfl

theorem unsub_pop (c : Cfg) (s : State) (l : Nat) (m : Msg) (rest : List Msg) (h : InvP c s) (hq : s.queue l = m :: rest) (hd : Handler) (addr : Nat) :
    (s.queue (c.locA hd.actor)).countP (isUnsub hd addr) =
      (if isUnsub hd addr m = true then 1 else 0) + (upd s.queue l rest (c.locA hd.actor)).countP (isUnsub hd addr) := by
  by_cases e : c.locA hd.actor = l
  · rw [e, upd_self, hq, List.countP_cons, Nat.add_comm]
  · rw [upd_ne _ _ _ _ e]
    have : isUnsub hd addr m ≠ true := by
      intro hu
      exact e (h.unQ l m hd addr (by rw [hq]; simp) (isUnsub_body hu)).1.symm
    rw [if_neg this]; simp

/-- the parts of `InvP` that only say where messages are survive a pop -/
theorem mem_popped {s : State} {l : Nat} {m : Msg} {rest : List Msg} (hq : s.queue l = m :: rest) {k : Nat} {m' : Msg}
    (hm : m' ∈ upd s.queue l rest k) : m' ∈ s.queue k := by
  by_cases e : k = l
  · subst e; rw [upd_self] at hm; rw [hq]; simp [hm]
  · rwa [upd_ne _ _ _ _ e] at hm

/-- pop of a message that is neither a protocol message nor an unsubscription -/
theorem invP_popLocal (c : Cfg) (s : State) (l : Nat) (m : Msg) (rest : List Msg) (h : InvP c s) (hq : s.queue l = m :: rest)
    (hl : c.locD m.dest = l) (h1 : ∀ h addr, protoOp h addr m = none) (h2 : ∀ h addr, isUnsub h addr m = false) :
    InvP c (popped l m rest s) := by
  refine ⟨?_, ?_, h.srcI, ?_, ?_, ?_, ?_, h.unI⟩
  · intro hd addr hx
    have := h.chain hd addr hx
    rw [pipe_popLocal c s l m rest h hq hl hd addr hx, h1] at this
    exact this
  · intro k m' hd addr hm hp; exact h.srcQ k m' hd addr (mem_popped hq hm) hp
  · intro k m' hd addr hm hp
    refine h.own k m' hd addr ?_ hp
    rcases hm with hm | hm
    · exact .inl (mem_popped hq hm)
    · exact .inr hm
  · intro hd addr p hp
    have := unsub_pop c s l m rest h hq hd addr
    rw [h.leave hd addr p hp, h2] at this
    simpa [popped] using this.symm
  · intro hd addr hp
    have := unsub_pop c s l m rest h hq hd addr
    rw [h.leaveN hd addr hp, h2] at this
    simp only [popped]; simp at this; omega
  · intro k m' hd addr hm hp; exact h.unQ k m' hd addr (mem_popped hq hm) hp

/-- forwarding to the inbound queue of another locality -/
theorem invP_forward (c : Cfg) (s : State) (l : Nat) (m : Msg) (rest : List Msg) (h : InvP c s) (hQ : InvQ c s) (hq : s.queue l = m :: rest)
    (hl : c.locD m.dest ≠ l) : InvP c (enqueue (c.locD m.dest) m (popped l m rest s)) := by
  have hun : ∀ hd addr, isUnsub hd addr m = false := by
    intro hd addr
    cases hu : isUnsub hd addr m with
    | false => rfl
    | true => exact absurd (h.unQ l m hd addr (by rw [hq]; simp) (isUnsub_body hu)).2 hl
  have hmem : ∀ {k m'}, m' ∈ (enqueue (c.locD m.dest) m (popped l m rest s)).inb k → m' ∈ s.inb k ∨ m' = m ∧ k = c.locD m.dest := by
    intro k m' hm
    by_cases e : k = c.locD m.dest
    · subst e
      simp only [enqueue, popped, upd_self, List.mem_append, List.mem_singleton] at hm
      rcases hm with hm | rfl
      · exact .inl hm
      · exact .inr ⟨rfl, rfl⟩
    · simp only [enqueue, popped, upd_ne _ _ _ _ e] at hm; exact .inl hm
  refine ⟨?_, ?_, ?_, ?_, ?_, ?_, ?_, ?_⟩
  · intro hd addr hx
    have := h.chain hd addr hx
    have hp : pipe c (enqueue (c.locD m.dest) m (popped l m rest s)) hd addr = pipe c s hd addr := by
      simp only [pipe, enqueue, popped]
      cases ho : protoOp hd addr m with
      | none =>
        have e1 : ∀ k, ops hd addr (upd s.queue l rest k) = ops hd addr (s.queue k) := by
          intro k
          by_cases e : k = l
          · subst e; rw [upd_self, hq, ops_cons, ho]; rfl
          · rw [upd_ne _ _ _ _ e]
        have e2 : ∀ k, ops hd addr (upd s.inb (c.locD m.dest) (s.inb (c.locD m.dest) ++ [m]) k) = ops hd addr (s.inb k) := by
          intro k
          by_cases e : k = c.locD m.dest
          · subst e; rw [upd_self, ops_append, ops_single, ho]; simp
          · rw [upd_ne _ _ _ _ e]
        rw [e1, e1, e2]
      | some b =>
        have hpr := (protoOp_proto ho).1
        have hdest := (h.srcQ l m hd addr (by rw [hq]; simp) hpr).2
        have hsrc := h.own l m hd addr (.inl (by rw [hq]; simp)) hpr
        have hla : c.locA hd.actor = l := by
          rcases hQ.wfQ l m (by rw [hq]; simp) with h1 | ⟨a, h1, h2⟩
          · exact absurd h1 hl
          · rw [hsrc] at h1; simp only [Option.some.injEq] at h1; rw [h1]; exact h2
        have hld : c.locD m.dest = c.locD addr := by rw [hdest, c.hSup]
        rw [hld] at hl ⊢
        rw [upd_ne _ _ _ _ hl, upd_self, hla, upd_self, hq, ops_cons, ops_append, ops_single, ho]
        simp only [List.append_assoc]
    rw [hp]; exact this
  · intro k m' hd addr hm hp; exact h.srcQ k m' hd addr (mem_popped hq hm) hp
  · intro k m' hd addr hm hp
    rcases hmem hm with hm | ⟨rfl, _⟩
    · exact h.srcI k m' hd addr hm hp
    · exact h.srcQ l m' hd addr (by rw [hq]; simp) hp
  · intro k m' hd addr hm hp
    rcases hm with hm | hm
    · exact h.own k m' hd addr (.inl (mem_popped hq hm)) hp
    · rcases hmem hm with hm | ⟨rfl, _⟩
      · exact h.own k m' hd addr (.inr hm) hp
      · exact h.own l m' hd addr (.inl (by rw [hq]; simp)) hp
  · intro hd addr p hp
    have := unsub_pop c s l m rest h hq hd addr
    rw [h.leave hd addr p hp, hun] at this
    simpa [popped, enqueue] using this.symm
  · intro hd addr hp
    have := unsub_pop c s l m rest h hq hd addr
    rw [h.leaveN hd addr hp, hun] at this
    simp only [popped, enqueue]; simp at this; omega
  · intro k m' hd addr hm hp; exact h.unQ k m' hd addr (mem_popped hq hm) hp
  · intro k m' hd addr hm hp
    rcases hmem hm with hm | ⟨rfl, _⟩
    · exact h.unI k m' hd addr hm hp
    · exact hl (h.unQ l m' hd addr (by rw [hq]; simp) hp).2

theorem invP_poll (c : Cfg) (s : State) (l : Nat) (h : InvP c s) (hQ : InvQ c s) : InvP c (poll l s) := by
  cases hi : s.inb l with
  | nil => simpa [poll, hi] using h
  | cons m rest =>
    have hmi : m ∈ s.inb l := by rw [hi]; simp
    have hml := (hQ.wfI l m hmi).1
    have hun : ∀ hd addr, isUnsub hd addr m = false := by
      intro hd addr
      cases hu : isUnsub hd addr m with
      | false => rfl
      | true => exact absurd (isUnsub_body hu) (h.unI l m hd addr hmi)
    have hmemq : ∀ {k m'}, m' ∈ upd s.queue l (s.queue l ++ [m]) k → m' ∈ s.queue k ∨ m' = m ∧ k = l := by
      intro k m' hm
      by_cases e : k = l
      · subst e
        simp only [upd_self, List.mem_append, List.mem_singleton] at hm
        rcases hm with hm | rfl
        · exact .inl hm
        · exact .inr ⟨rfl, rfl⟩
      · rw [upd_ne _ _ _ _ e] at hm; exact .inl hm
    have hmemi : ∀ {k m'}, m' ∈ upd s.inb l rest k → m' ∈ s.inb k := by
      intro k m' hm
      by_cases e : k = l
      · subst e; rw [upd_self] at hm; rw [hi]; simp [hm]
      · rwa [upd_ne _ _ _ _ e] at hm
    have hcnt : ∀ hd addr, (upd s.queue l (s.queue l ++ [m]) (c.locA hd.actor)).countP (isUnsub hd addr) = (s.queue (c.locA hd.actor)).countP (isUnsub hd addr) := by
      intro hd addr
      by_cases e : c.locA hd.actor = l
      · rw [e, upd_self, List.countP_append]; simp [hun]
      · rw [upd_ne _ _ _ _ e]
    simp only [poll, hi]
    refine ⟨?_, ?_, ?_, ?_, ?_, ?_, ?_, ?_⟩
    · intro hd addr hx
      have := h.chain hd addr hx
      have hp : ops hd addr (upd s.queue l (s.queue l ++ [m]) (c.locD addr)) ++ ops hd addr (upd s.inb l rest (c.locD addr)) ++
          ops hd addr (upd s.queue l (s.queue l ++ [m]) (c.locA hd.actor)) = pipe c s hd addr := by
        simp only [pipe]
        by_cases e : c.locD addr = l
        · subst e
          rw [upd_self, upd_self, upd_ne _ _ _ _ (Ne.symm hx), hi, ops_append, ops_single, ops_cons]
          simp only [List.append_assoc]
        · rw [upd_ne _ _ _ _ e, upd_ne _ _ _ _ e]
          have hn : protoOp hd addr m = none := by
            cases hp : protoOp hd addr m with
            | none => rfl
            | some b =>
              have := (h.srcI l m hd addr hmi (protoOp_proto hp).1).2
              rw [this, c.hSup] at hml
              exact absurd hml e
          by_cases e2 : c.locA hd.actor = l
          · rw [e2, upd_self, ops_append, ops_single, hn]; simp
          · rw [upd_ne _ _ _ _ e2]
      simp only [pipe] at hp ⊢
      rw [hp]; exact this
    · intro k m' hd addr hm hp
      rcases hmemq hm with hm | ⟨rfl, _⟩
      · exact h.srcQ k m' hd addr hm hp
      · exact h.srcI l m' hd addr hmi hp
    · intro k m' hd addr hm hp; exact h.srcI k m' hd addr (hmemi hm) hp
    · intro k m' hd addr hm hp
      rcases hm with hm | hm
      · rcases hmemq hm with hm | ⟨rfl, _⟩
        · exact h.own k m' hd addr (.inl hm) hp
        · exact h.own l m' hd addr (.inr hmi) hp
      · exact h.own k m' hd addr (.inr (hmemi hm)) hp
    · intro hd addr p hp; simp only [hcnt]; exact h.leave hd addr p hp
    · intro hd addr hp; simp only [hcnt]; exact h.leaveN hd addr hp
    · intro k m' hd addr hm hp
      rcases hmemq hm with hm | ⟨rfl, _⟩
      · exact h.unQ k m' hd addr hm hp
      · exact absurd hp (h.unI l m' hd addr hmi)
    · intro k m' hd addr hm; exact h.unI k m' hd addr (hmemi hm)

/-- something that is neither a protocol message nor an unsubscription is put into an inbound queue -/
theorem invP_enqueue (c : Cfg) (s : State) (k : Nat) (m : Msg) (h : InvP c s) (h1 : ∀ h addr, protoOp h addr m = none)
    (h2 : ∀ h addr, ¬ isProto m h addr) (h3 : ∀ h addr, m.body ≠ .unsub h addr) : InvP c (enqueue k m s) := by
  have hmem : ∀ {j m'}, m' ∈ (enqueue k m s).inb j → m' ∈ s.inb j ∨ m' = m := by
    intro j m' hm
    by_cases e : j = k
    · subst e
      simp only [enqueue, upd_self, List.mem_append, List.mem_singleton] at hm
      exact hm
    · simp only [enqueue, upd_ne _ _ _ _ e] at hm; exact .inl hm
  refine ⟨?_, h.srcQ, ?_, ?_, h.leave, h.leaveN, h.unQ, ?_⟩
  · intro hd addr hx
    have := h.chain hd addr hx
    have hp : pipe c (enqueue k m s) hd addr = pipe c s hd addr := by
      simp only [pipe, enqueue]
      by_cases e : c.locD addr = k
      · rw [e, upd_self, ops_append, ops_single, h1]; simp
      · rw [upd_ne _ _ _ _ e]
    rw [hp]; exact this
  · intro j m' hd addr hm hp
    rcases hmem hm with hm | rfl
    · exact h.srcI j m' hd addr hm hp
    · exact absurd hp (h2 hd addr)
  · intro j m' hd addr hm hp
    rcases hm with hm | hm
    · exact h.own j m' hd addr (.inl hm) hp
    · rcases hmem hm with hm | rfl
      · exact h.own j m' hd addr (.inr hm) hp
      · exact absurd hp (h2 hd addr)
  · intro j m' hd addr hm
    rcases hmem hm with hm | rfl
    · exact h.unI j m' hd addr hm
    · exact h3 hd addr

theorem mem_send {c : Cfg} {a dest : Nat} {body : Body} {s : State} {k : Nat} {m' : Msg} (hm : m' ∈ (send c a dest body s).queue k) :
    m' ∈ s.queue k ∨ m' = ⟨s.next, some a, dest, body⟩ ∧ k = c.locA a := by
  by_cases e : k = c.locA a
  · subst e
    simp only [send, upd_self, List.mem_append, List.mem_singleton] at hm
    rcases hm with hm | rfl
    · exact .inl hm
    · exact .inr ⟨rfl, rfl⟩
  · simp only [send, upd_ne _ _ _ _ e] at hm; exact .inl hm

theorem pipe_send (c : Cfg) (s : State) (a dest : Nat) (body : Body) (hd : Handler) (addr : Nat) (hx : c.locD addr ≠ c.locA hd.actor)
    (ho : protoOp hd addr ⟨s.next, some a, dest, body⟩ = none ∨ a = hd.actor) :
    pipe c (send c a dest body s) hd addr = pipe c s hd addr ++ (protoOp hd addr ⟨s.next, some a, dest, body⟩).toList := by
  simp only [pipe, send]
  by_cases e : c.locD addr = c.locA a
  · have hn : protoOp hd addr ⟨s.next, some a, dest, body⟩ = none := by
      rcases ho with ho | ho
      · exact ho
      · subst ho; exact absurd e hx
    rw [e, upd_self, ops_append, ops_single, hn]
    rw [e] at hx
    rw [upd_ne _ _ _ _ (Ne.symm hx)]; simp
  · rw [upd_ne _ _ _ _ e]
    by_cases e2 : c.locA hd.actor = c.locA a
    · rw [e2, upd_self, ops_append, ops_single]; simp
    · have hn : protoOp hd addr ⟨s.next, some a, dest, body⟩ = none := by
        rcases ho with ho | ho
        · exact ho
        · subst ho; exact absurd rfl e2
      rw [upd_ne _ _ _ _ e2, hn]; simp

/-- sending something that is neither a protocol message nor an unsubscription -/
theorem invP_send (c : Cfg) (s : State) (a dest : Nat) (body : Body) (h : InvP c s)
    (hb : (∀ h addr, body ≠ .extSub h addr) ∧ (∀ h addr, body ≠ .commit h addr) ∧ (∀ h addr, body ≠ .unsub h addr)) :
    InvP c (send c a dest body s) := by
  have hnp : ∀ hd addr, ¬ isProto ⟨s.next, some a, dest, body⟩ hd addr := by
    rintro hd addr (h1 | h1)
    · exact hb.1 _ _ h1
    · exact hb.2.1 _ _ h1
  have hno : ∀ hd addr, protoOp hd addr ⟨s.next, some a, dest, body⟩ = none := by
    intro hd addr
    cases hp : protoOp hd addr ⟨s.next, some a, dest, body⟩ with
    | none => rfl
    | some b => exact absurd (protoOp_proto hp).1 (hnp hd addr)
  have hnu : ∀ hd addr, isUnsub hd addr ⟨s.next, some a, dest, body⟩ = false := by
    intro hd addr
    cases hp : isUnsub hd addr ⟨s.next, some a, dest, body⟩ with
    | false => rfl
    | true => exact absurd (isUnsub_body hp) (hb.2.2 hd addr)
  have hcnt : ∀ hd addr, ((send c a dest body s).queue (c.locA hd.actor)).countP (isUnsub hd addr) = (s.queue (c.locA hd.actor)).countP (isUnsub hd addr) := by
    intro hd addr
    simp only [send]
    by_cases e : c.locA hd.actor = c.locA a
    · rw [e, upd_self, List.countP_append]; simp [hnu]
    · rw [upd_ne _ _ _ _ e]
  refine ⟨?_, ?_, h.srcI, ?_, ?_, ?_, ?_, h.unI⟩
  · intro hd addr hx
    have := h.chain hd addr hx
    rw [pipe_send c s a dest body hd addr hx (.inl (hno hd addr)), hno]
    simp only [Option.toList_none, List.append_nil]
    exact this
  · intro k m' hd addr hm hp
    rcases mem_send hm with hm | ⟨rfl, _⟩
    · exact h.srcQ k m' hd addr hm hp
    · exact absurd hp (hnp hd addr)
  · intro k m' hd addr hm hp
    rcases hm with hm | hm
    · rcases mem_send hm with hm | ⟨rfl, _⟩
      · exact h.own k m' hd addr (.inl hm) hp
      · exact absurd hp (hnp hd addr)
    · exact h.own k m' hd addr (.inr hm) hp
  · intro hd addr p hp; rw [hcnt]; exact h.leave hd addr p hp
  · intro hd addr hp; rw [hcnt]; exact h.leaveN hd addr hp
  · intro k m' hd addr hm hp
    rcases mem_send hm with hm | ⟨rfl, _⟩
    · exact h.unQ k m' hd addr hm hp
    · exact absurd hp (hb.2.2 hd addr)

end Verif.Net
