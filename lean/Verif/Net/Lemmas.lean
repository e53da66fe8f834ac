import Verif.Net.Spec

/-!
# Invariants of the message delivery
-/

namespace Verif.Net
open Verif

@[simp] theorem upd_self {α : Type} (f : Nat → α) (i : Nat) (v : α) : upd f i v i = v := by simp [upd]
theorem upd_ne {α : Type} (f : Nat → α) (i j : Nat) (v : α) (h : j ≠ i) : upd f i v j = f j := by simp [upd, h]

def fromL (c : Cfg) (l : Nat) (m : Msg) : Bool := decide (m.src.map c.locA = some l)
def sel (c : Cfg) (l d : Nat) (m : Msg) : Bool := decide (m.src.map c.locA = some l ∧ m.dest = d)

theorem sentFrom_cons (c : Cfg) (l : Nat) (m : Msg) (log : List Ev) :
    sentFrom c l (.sent m :: log) = sentFrom c l log ++ if m.src.map c.locA = some l then [m] else [] := by
  simp only [sentFrom, List.reverse_cons, List.filterMap_append, List.filterMap_cons, List.filterMap_nil]
  by_cases hc : m.src.map c.locA = some l
  · simp only [if_pos hc]
  · simp only [if_neg hc]
theorem sentFrom_took (c : Cfg) (l k : Nat) (m : Msg) (log : List Ev) : sentFrom c l (.took k m :: log) = sentFrom c l log := by
  simp [sentFrom, List.filterMap_append]
theorem sentFrom_exec (c : Cfg) (l k : Nat) (h : Handler) (o : Orig) (log : List Ev) : sentFrom c l (.exec k h o :: log) = sentFrom c l log := by
  simp [sentFrom, List.filterMap_append]
theorem tookFrom_cons (c : Cfg) (l k : Nat) (m : Msg) (log : List Ev) :
    tookFrom c l (.took k m :: log) = tookFrom c l log ++ if k = l ∧ m.src.map c.locA = some l then [m] else [] := by
  simp only [tookFrom, List.reverse_cons, List.filterMap_append, List.filterMap_cons, List.filterMap_nil]
  by_cases hc : k = l ∧ m.src.map c.locA = some l
  · simp only [if_pos hc]
  · simp only [if_neg hc]
theorem tookFrom_sent (c : Cfg) (l : Nat) (m : Msg) (log : List Ev) : tookFrom c l (.sent m :: log) = tookFrom c l log := by
  simp [tookFrom, List.filterMap_append]
theorem tookFrom_exec (c : Cfg) (l k : Nat) (h : Handler) (o : Orig) (log : List Ev) : tookFrom c l (.exec k h o :: log) = tookFrom c l log := by
  simp [tookFrom, List.filterMap_append]
theorem sentTo_cons (c : Cfg) (l d : Nat) (m : Msg) (log : List Ev) :
    sentTo c l d (.sent m :: log) = sentTo c l d log ++ if m.src.map c.locA = some l ∧ m.dest = d then [m] else [] := by
  simp only [sentTo, List.reverse_cons, List.filterMap_append, List.filterMap_cons, List.filterMap_nil]
  by_cases hc : m.src.map c.locA = some l ∧ m.dest = d
  · simp only [if_pos hc]
  · simp only [if_neg hc]
theorem sentTo_took (c : Cfg) (l d k : Nat) (m : Msg) (log : List Ev) : sentTo c l d (.took k m :: log) = sentTo c l d log := by
  simp [sentTo, List.filterMap_append]
theorem sentTo_exec (c : Cfg) (l d k : Nat) (h : Handler) (o : Orig) (log : List Ev) : sentTo c l d (.exec k h o :: log) = sentTo c l d log := by
  simp [sentTo, List.filterMap_append]
theorem tookTo_cons (c : Cfg) (l d k : Nat) (m : Msg) (log : List Ev) :
    tookTo c l d (.took k m :: log) = tookTo c l d log ++ if k = c.locD d ∧ m.src.map c.locA = some l ∧ m.dest = d then [m] else [] := by
  simp only [tookTo, List.reverse_cons, List.filterMap_append, List.filterMap_cons, List.filterMap_nil]
  by_cases hc : k = c.locD d ∧ m.src.map c.locA = some l ∧ m.dest = d
  · simp only [if_pos hc]
  · simp only [if_neg hc]
theorem tookTo_sent (c : Cfg) (l d : Nat) (m : Msg) (log : List Ev) : tookTo c l d (.sent m :: log) = tookTo c l d log := by
  simp [tookTo, List.filterMap_append]
theorem tookTo_exec (c : Cfg) (l d k : Nat) (h : Handler) (o : Orig) (log : List Ev) : tookTo c l d (.exec k h o :: log) = tookTo c l d log := by
  simp [tookTo, List.filterMap_append]

/-- the identities of all messages sent, in order -/
def sentUids (log : List Ev) : List Nat := log.reverse.filterMap fun | .sent m => some m.uid | _ => none

/-! ## queues -/

structure InvQ (c : Cfg) (s : State) : Prop where
  wfI : ∀ l m, m ∈ s.inb l → c.locD m.dest = l ∧ ∀ a, m.src = some a → c.locA a ≠ l
  wfQ : ∀ l m, m ∈ s.queue l → c.locD m.dest = l ∨ ∃ a, m.src = some a ∧ c.locA a = l
  fifoL : ∀ l, sentFrom c l s.log = tookFrom c l s.log ++ (s.queue l).filter (fromL c l)
  fifo : ∀ l d, l ≠ c.locD d → sentTo c l d s.log =
    tookTo c l d s.log ++ (s.queue (c.locD d)).filter (sel c l d) ++ (s.inb (c.locD d)).filter (sel c l d) ++ (s.queue l).filter (sel c l d)
  uids : (sentUids s.log).Pairwise (· < ·)
  bound : ∀ u ∈ sentUids s.log, u < s.next

theorem InvQ.of {c : Cfg} {s s' : State} (h : InvQ c s) (h1 : s'.queue = s.queue) (h2 : s'.inb = s.inb) (h3 : s'.log = s.log)
    (h4 : s.next ≤ s'.next) : InvQ c s' := by
  obtain ⟨n, q, i, sb, p, f, al, st, lg⟩ := s'
  simp only at h1 h2 h3 h4
  subst h1 h2 h3
  exact ⟨h.wfI, h.wfQ, h.fifoL, h.fifo, h.uids, fun u hu => Nat.lt_of_lt_of_le (h.bound u hu) h4⟩

theorem invQ_exec (c : Cfg) (s : State) (k : Nat) (hd : Handler) (o : Orig) (h : InvQ c s) : InvQ c { s with log := .exec k hd o :: s.log } :=
  ⟨h.wfI, h.wfQ, fun l => by rw [sentFrom_exec, tookFrom_exec]; exact h.fifoL l,
   fun l d hl => by rw [sentTo_exec, tookTo_exec]; exact h.fifo l d hl,
   by simpa [sentUids, List.filterMap_append] using h.uids, by simpa [sentUids, List.filterMap_append] using h.bound⟩

theorem invQ_send (c : Cfg) (s : State) (a dest : Nat) (body : Body) (h : InvQ c s) : InvQ c (send c a dest body s) := by
  refine ⟨h.wfI, ?_, ?_, ?_, ?_, ?_⟩
  · intro l m hm
    by_cases hl : l = c.locA a
    · subst hl
      simp only [send, upd_self, List.mem_append, List.mem_singleton] at hm
      rcases hm with hm | rfl
      · exact h.wfQ _ _ hm
      · exact .inr ⟨a, rfl, rfl⟩
    · simp only [send, upd_ne _ _ _ _ hl] at hm
      exact h.wfQ _ _ hm
  · intro l
    simp only [send, sentFrom_cons, tookFrom_sent, h.fifoL l]
    by_cases hl : l = c.locA a
    · subst hl; simp [List.filter_append, fromL]
    · simp [upd_ne _ _ _ _ hl, Ne.symm hl]
  · intro l d hl
    simp only [send, sentTo_cons, tookTo_sent, h.fifo l d hl]
    by_cases e : l = c.locA a
    · subst e
      by_cases e2 : dest = d
      · subst e2
        simp [upd_ne _ _ _ _ (Ne.symm hl), List.filter_append, sel]
      · simp [upd_ne _ _ _ _ (Ne.symm hl), List.filter_append, sel, e2]
    · have e3 : (List.filter (sel c l d) (upd s.queue (c.locA a) (s.queue (c.locA a) ++ [⟨s.next, some a, dest, body⟩]) (c.locD d))) =
        List.filter (sel c l d) (s.queue (c.locD d)) := by
        by_cases e4 : c.locD d = c.locA a
        · rw [e4]; simp [List.filter_append, sel, Ne.symm e]
        · rw [upd_ne _ _ _ _ e4]
      simp only [e3, upd_ne _ _ _ _ e]
      simp [Ne.symm e]
  · simp only [send, sentUids, List.reverse_cons, List.filterMap_append, List.filterMap_cons, List.filterMap_nil]
    rw [List.pairwise_append]
    refine ⟨h.uids, by simp, ?_⟩
    intro x hx y hy
    simp only [List.mem_singleton] at hy
    subst hy; exact h.bound x hx
  · intro u hu
    simp only [send, sentUids, List.reverse_cons, List.filterMap_append, List.filterMap_cons, List.filterMap_nil, List.mem_append, List.mem_singleton] at hu
    show u < s.next + 1
    rcases hu with hu | hu
    · have := h.bound u hu; omega
    · omega

/-- a message without a sender is put into an inbound queue -/
theorem invQ_enqueue (c : Cfg) (s : State) (m : Msg) (h : InvQ c s) (hs : m.src = none) :
    InvQ c (enqueue (c.locD m.dest) m s) := by
  refine ⟨?_, h.wfQ, h.fifoL, ?_, h.uids, h.bound⟩
  · intro l m' hm
    by_cases hl : l = c.locD m.dest
    · subst hl
      simp only [enqueue, upd_self, List.mem_append, List.mem_singleton] at hm
      rcases hm with hm | rfl
      · exact h.wfI _ _ hm
      · exact ⟨rfl, by rw [hs]; simp⟩
    · simp only [enqueue, upd_ne _ _ _ _ hl] at hm
      exact h.wfI _ _ hm
  · intro l d hl
    have e : List.filter (sel c l d) ((enqueue (c.locD m.dest) m s).inb (c.locD d)) = List.filter (sel c l d) (s.inb (c.locD d)) := by
      by_cases e : c.locD d = c.locD m.dest
      · simp [enqueue, e, List.filter_append, sel, hs]
      · simp [enqueue, upd_ne _ _ _ _ e]
    rw [e]; exact h.fifo l d hl

theorem invQ_poll (c : Cfg) (s : State) (l : Nat) (h : InvQ c s) : InvQ c (poll l s) := by
  cases hi : s.inb l with
  | nil => simpa [poll, hi] using h
  | cons m rest =>
    have hm := h.wfI l m (by rw [hi]; simp)
    have hnf : ∀ d, sel c l d m = false := by
      intro d
      cases hs : m.src with
      | none => simp [sel, hs]
      | some a => simp [sel, hs, hm.2 a hs]
    have hnf2 : fromL c l m = false := by
      cases hs : m.src with
      | none => simp [fromL, hs]
      | some a => simp [fromL, hs, hm.2 a hs]
    simp only [poll, hi]
    refine ⟨?_, ?_, ?_, ?_, h.uids, h.bound⟩
    · intro k m' hm'
      by_cases hk : k = l
      · subst hk; simp only [upd_self] at hm'; exact h.wfI k m' (by rw [hi]; simp [hm'])
      · simp only [upd_ne _ _ _ _ hk] at hm'; exact h.wfI k m' hm'
    · intro k m' hm'
      by_cases hk : k = l
      · subst hk
        simp only [upd_self, List.mem_append, List.mem_singleton] at hm'
        rcases hm' with hm' | rfl
        · exact h.wfQ k m' hm'
        · exact .inl hm.1
      · simp only [upd_ne _ _ _ _ hk] at hm'; exact h.wfQ k m' hm'
    · intro k
      by_cases hk : k = l
      · subst hk; simp only [upd_self, List.filter_append]; simp [hnf2, h.fifoL]
      · simp only [upd_ne _ _ _ _ hk]; exact h.fifoL k
    · intro k d hkd
      have hf := h.fifo k d hkd
      have e1 : (upd s.queue l (s.queue l ++ [m]) k).filter (sel c k d) = (s.queue k).filter (sel c k d) := by
        by_cases hk : k = l
        · subst hk; simp [List.filter_append, hnf]
        · rw [upd_ne _ _ _ _ hk]
      simp only
      rw [e1]
      by_cases hd : c.locD d = l
      · rw [hd] at hf ⊢
        simp only [upd_self, List.filter_append]
        rw [hf, hi, List.filter_cons]
        by_cases hse : sel c k d m = true
        · simp [hse]
        · simp [hse]
      · rw [upd_ne _ _ _ _ hd, upd_ne _ _ _ _ hd]; exact hf

/-- the state after the loop took the message `m` -/
def popped (l : Nat) (m : Msg) (rest : List Msg) (s : State) : State :=
  { s with queue := upd s.queue l rest, log := .took l m :: s.log }

theorem sentUids_took (l : Nat) (m : Msg) (log : List Ev) : sentUids (.took l m :: log) = sentUids log := by
  simp [sentUids, List.filterMap_append]

theorem invQ_popLocal (c : Cfg) (s : State) (l : Nat) (m : Msg) (rest : List Msg) (h : InvQ c s) (hq : s.queue l = m :: rest)
    (hl : c.locD m.dest = l) : InvQ c (popped l m rest s) := by
  refine ⟨h.wfI, ?_, ?_, ?_, ?_, ?_⟩
  · intro k m' hm'
    by_cases hk : k = l
    · subst hk; simp only [popped, upd_self] at hm'; exact h.wfQ k m' (by rw [hq]; simp [hm'])
    · simp only [popped, upd_ne _ _ _ _ hk] at hm'; exact h.wfQ k m' hm'
  · intro k
    have hf := h.fifoL k
    simp only [popped, sentFrom_took, tookFrom_cons]
    rw [hf]
    by_cases hk : k = l
    · subst hk
      rw [hq]
      by_cases hfr : m.src.map c.locA = some k
      · simp [List.filter_cons, fromL, hfr]
      · simp [List.filter_cons, fromL, hfr]
    · simp [upd_ne _ _ _ _ hk, Ne.symm hk]
  · intro k d hkd
    have hf := h.fifo k d hkd
    simp only [popped, sentTo_took, tookTo_cons]
    rw [hf]
    by_cases hd : c.locD d = l
    · subst hd
      rw [upd_self, upd_ne _ _ _ _ hkd, hq]
      by_cases hse : m.src.map c.locA = some k ∧ m.dest = d
      · have : sel c k d m = true := by simp [sel, hse]
        simp [List.filter_cons, this, hse]
      · have : sel c k d m = false := by simp only [sel, decide_eq_false_iff_not]; exact hse
        rw [if_neg (fun hh => hse hh.2)]; simp [List.filter_cons, this]
    · rw [upd_ne _ _ _ _ hd]
      have hmd : m.dest ≠ d := by intro he; rw [he] at hl; exact hd hl
      have e : (upd s.queue l rest k).filter (sel c k d) = (s.queue k).filter (sel c k d) := by
        by_cases hk : k = l
        · subst hk
          rw [upd_self, hq, List.filter_cons]
          have : sel c k d m = false := by simp [sel, hmd]
          simp [this]
        · rw [upd_ne _ _ _ _ hk]
      rw [e]; simp [hmd]
  · simpa only [popped, sentUids_took] using h.uids
  · simpa only [popped, sentUids_took] using h.bound

theorem invQ_forward (c : Cfg) (s : State) (l : Nat) (m : Msg) (rest : List Msg) (h : InvQ c s) (hq : s.queue l = m :: rest)
    (hl : c.locD m.dest ≠ l) : InvQ c (enqueue (c.locD m.dest) m (popped l m rest s)) := by
  obtain ⟨a, ha, hla⟩ : ∃ a, m.src = some a ∧ c.locA a = l := by
    rcases h.wfQ l m (by rw [hq]; simp) with h1 | h1
    · exact absurd h1 hl
    · exact h1
  have hsrc : m.src.map c.locA = some l := by simp [ha, hla]
  refine ⟨?_, ?_, ?_, ?_, ?_, ?_⟩
  · intro k m' hm'
    by_cases hk : k = c.locD m.dest
    · subst hk
      simp only [enqueue, popped, upd_self, List.mem_append, List.mem_singleton] at hm'
      rcases hm' with hm' | rfl
      · exact h.wfI _ _ hm'
      · refine ⟨rfl, fun b hb => ?_⟩
        rw [ha] at hb
        simp only [Option.some.injEq] at hb
        subst hb; rw [hla]; exact Ne.symm hl
    · simp only [enqueue, popped, upd_ne _ _ _ _ hk] at hm'
      exact h.wfI _ _ hm'
  · intro k m' hm'
    by_cases hk : k = l
    · subst hk; simp only [enqueue, popped, upd_self] at hm'; exact h.wfQ k m' (by rw [hq]; simp [hm'])
    · simp only [enqueue, popped, upd_ne _ _ _ _ hk] at hm'; exact h.wfQ k m' hm'
  · intro k
    have hf := h.fifoL k
    simp only [enqueue, popped, sentFrom_took, tookFrom_cons]
    rw [hf]
    by_cases hk : k = l
    · subst hk
      rw [hq]
      simp [List.filter_cons, fromL, hsrc]
    · simp [upd_ne _ _ _ _ hk, Ne.symm hk]
  · intro k d hkd
    have hf := h.fifo k d hkd
    simp only [enqueue, popped, sentTo_took, tookTo_cons]
    rw [hf]
    by_cases hd : m.dest = d
    · subst hd
      rw [upd_ne _ _ _ _ hl, upd_self]
      by_cases hk : k = l
      · subst hk
        have : sel c k m.dest m = true := by simp [sel, hsrc]
        simp [hq, List.filter_cons, this, List.filter_append, Ne.symm hl]
      · rw [upd_ne _ _ _ _ hk]
        have : sel c k m.dest m = false := by simp [sel, hsrc, Ne.symm hk]
        simp [List.filter_append, this, hsrc, Ne.symm hk]
    · have hs : sel c k d m = false := by simp [sel, hd]
      have e1 : ∀ k', (upd s.queue l rest k').filter (sel c k d) = (s.queue k').filter (sel c k d) := by
        intro k'
        by_cases hk : k' = l
        · subst hk; rw [upd_self, hq, List.filter_cons]; simp [hs]
        · rw [upd_ne _ _ _ _ hk]
      have e2 : (upd s.inb (c.locD m.dest) (s.inb (c.locD m.dest) ++ [m]) (c.locD d)).filter (sel c k d) = (s.inb (c.locD d)).filter (sel c k d) := by
        by_cases hk : c.locD d = c.locD m.dest
        · rw [hk, upd_self, List.filter_append]; simp [hs]
        · rw [upd_ne _ _ _ _ hk]
      rw [e1, e1, e2]; simp [hd]
  · simpa only [enqueue, popped, sentUids_took] using h.uids
  · simpa only [enqueue, popped, sentUids_took] using h.bound

/-! ## executed handlers -/

/-- identities of the messages from locality `l` to `d` that `h` has seen -/
def execU (c : Cfg) (h : Handler) (l d : Nat) (log : List Ev) : List Nat :=
  log.reverse.filterMap fun
    | .exec _ h' o => if h' = h ∧ o.src.map c.locA = some l ∧ o.dest = d then some o.uid else none
    | _ => none

/-- the same for wrapped calls that are still under way -/
def callU (c : Cfg) (h : Handler) (l d : Nat) (q : List Msg) : List Nat :=
  q.filterMap fun m =>
    match m.body with
    | .call h' o => if h' = h ∧ o.src.map c.locA = some l ∧ o.dest = d then some o.uid else none
    | _ => none

def tookU (c : Cfg) (l d : Nat) (log : List Ev) : List Nat := (tookTo c l d log).map (·.uid)

theorem execU_exec (c : Cfg) (h h' : Handler) (l d k : Nat) (o : Orig) (log : List Ev) :
    execU c h l d (.exec k h' o :: log) = execU c h l d log ++ if h' = h ∧ o.src.map c.locA = some l ∧ o.dest = d then [o.uid] else [] := by
  simp only [execU, List.reverse_cons, List.filterMap_append, List.filterMap_cons, List.filterMap_nil]
  by_cases hc : h' = h ∧ o.src.map c.locA = some l ∧ o.dest = d
  · simp only [if_pos hc]
  · simp only [if_neg hc]
theorem execU_sent (c : Cfg) (h : Handler) (l d : Nat) (m : Msg) (log : List Ev) : execU c h l d (.sent m :: log) = execU c h l d log := by
  simp [execU, List.filterMap_append]
theorem execU_took (c : Cfg) (h : Handler) (l d k : Nat) (m : Msg) (log : List Ev) : execU c h l d (.took k m :: log) = execU c h l d log := by
  simp [execU, List.filterMap_append]
theorem tookU_sent (c : Cfg) (l d : Nat) (m : Msg) (log : List Ev) : tookU c l d (.sent m :: log) = tookU c l d log := by
  simp [tookU, tookTo_sent]
theorem tookU_exec (c : Cfg) (l d k : Nat) (h : Handler) (o : Orig) (log : List Ev) : tookU c l d (.exec k h o :: log) = tookU c l d log := by
  simp [tookU, tookTo_exec]
theorem tookU_took (c : Cfg) (l d k : Nat) (m : Msg) (log : List Ev) :
    tookU c l d (.took k m :: log) = tookU c l d log ++ if k = c.locD d ∧ m.src.map c.locA = some l ∧ m.dest = d then [m.uid] else [] := by
  simp only [tookU, tookTo_cons, List.map_append]
  split <;> simp
theorem callU_append (c : Cfg) (h : Handler) (l d : Nat) (q q' : List Msg) : callU c h l d (q ++ q') = callU c h l d q ++ callU c h l d q' := by
  simp [callU]
theorem callU_cons (c : Cfg) (h : Handler) (l d : Nat) (m : Msg) (q : List Msg) : callU c h l d (m :: q) = callU c h l d [m] ++ callU c h l d q := by
  rw [← callU_append]; rfl
theorem callU_other (c : Cfg) (h : Handler) (l d : Nat) (m : Msg) (hm : ∀ h o, m.body ≠ .call h o) : callU c h l d [m] = [] := by
  cases hb : m.body <;> simp_all [callU]
theorem callU_nil_of (c : Cfg) (h : Handler) (l d : Nat) (q : List Msg) (hq : ∀ m ∈ q, ∀ h' o, m.body = .call h' o → h' = h → o.dest ≠ d) :
    callU c h l d q = [] := by
  rw [callU, List.filterMap_eq_nil_iff]
  intro m hm
  cases hb : m.body with
  | call h' o =>
    have := hq m hm h' o hb
    simp only
    rw [if_neg]
    rintro ⟨h1, _, h2⟩
    exact this h1 h2
  | _ => rfl

/-- `E h l d`: seen and to be seen -/
def pend (c : Cfg) (s : State) (h : Handler) (l d : Nat) : List Nat :=
  execU c h l d s.log ++ callU c h l d (s.queue (c.locA h.actor)) ++ callU c h l d (s.inb (c.locA h.actor))

structure InvE (c : Cfg) (s : State) : Prop where
  sub : ∀ h l d, (pend c s h l d).Sublist (tookU c l d s.log)
  placeQ : ∀ l m h o, m ∈ s.queue l → m.body = .call h o → l = c.locA h.actor ∧ c.locD o.dest ≠ c.locA h.actor ∧ c.locD m.dest = l
  placeI : ∀ l m h o, m ∈ s.inb l → m.body = .call h o → l = c.locA h.actor ∧ c.locD o.dest ≠ c.locA h.actor ∧ c.locD m.dest = l
  loc : ∀ l h o, .exec l h o ∈ s.log → l = c.locA h.actor

theorem InvE.of {c : Cfg} {s s' : State} (h : InvE c s) (h1 : s'.queue = s.queue) (h2 : s'.inb = s.inb) (h3 : s'.log = s.log) : InvE c s' := by
  obtain ⟨n, q, i, sb, p, f, al, st, lg⟩ := s'
  simp only at h1 h2 h3
  subst h1 h2 h3
  exact ⟨h.sub, h.placeQ, h.placeI, h.loc⟩

theorem pend_send (c : Cfg) (s : State) (a dest : Nat) (body : Body) (hb : ∀ h o, body ≠ .call h o) (h : Handler) (l d : Nat) :
    pend c (send c a dest body s) h l d = pend c s h l d := by
  have : callU c h l d ((send c a dest body s).queue (c.locA h.actor)) = callU c h l d (s.queue (c.locA h.actor)) := by
    by_cases e : c.locA h.actor = c.locA a
    · simp only [send, e, upd_self, callU_append]
      rw [callU_other c h l d ⟨s.next, some a, dest, body⟩ hb]; simp
    · simp only [send, upd_ne _ _ _ _ e]
  simp only [pend, this]
  simp only [send, execU_sent]

theorem invE_send (c : Cfg) (s : State) (a dest : Nat) (body : Body) (hb : ∀ h o, body ≠ .call h o) (h : InvE c s) :
    InvE c (send c a dest body s) := by
  refine ⟨?_, ?_, h.placeI, ?_⟩
  · intro hd l d
    rw [pend_send c s a dest body hb]
    simp only [send, tookU_sent]; exact h.sub hd l d
  · intro l m hd o hm he
    by_cases e : l = c.locA a
    · subst e
      simp only [send, upd_self, List.mem_append, List.mem_singleton] at hm
      rcases hm with hm | rfl
      · exact h.placeQ _ _ _ _ hm he
      · exact absurd he (hb hd o)
    · simp only [send, upd_ne _ _ _ _ e] at hm
      exact h.placeQ _ _ _ _ hm he
  · intro l hd o hm
    simp only [send, List.mem_cons, reduceCtorEq, false_or] at hm
    exact h.loc l hd o hm

theorem invE_poll (c : Cfg) (s : State) (k : Nat) (h : InvE c s) : InvE c (poll k s) := by
  cases hi : s.inb k with
  | nil => simpa [poll, hi] using h
  | cons m rest =>
    simp only [poll, hi]
    refine ⟨?_, ?_, ?_, h.loc⟩
    · intro hd l d
      have hs := h.sub hd l d
      simp only [pend] at hs ⊢
      by_cases e : c.locA hd.actor = k
      · subst e
        rw [hi, callU_cons] at hs
        simp only [upd_self, callU_append]
        simpa only [List.append_assoc] using hs
      · simp only [upd_ne _ _ _ _ e]; exact hs
    · intro l m' hd o hm he
      by_cases e : l = k
      · subst e
        simp only [upd_self, List.mem_append, List.mem_singleton] at hm
        rcases hm with hm | rfl
        · exact h.placeQ _ _ _ _ hm he
        · exact h.placeI l m' hd o (by rw [hi]; simp) he
      · simp only [upd_ne _ _ _ _ e] at hm
        exact h.placeQ _ _ _ _ hm he
    · intro l m' hd o hm he
      by_cases e : l = k
      · subst e
        simp only [upd_self] at hm
        exact h.placeI l m' hd o (by rw [hi]; simp [hm]) he
      · simp only [upd_ne _ _ _ _ e] at hm
        exact h.placeI _ _ _ _ hm he

/-- a message that is no wrapped call arrives from outside -/
theorem invE_enqueue (c : Cfg) (s : State) (k : Nat) (m : Msg) (h : InvE c s) (hb : ∀ h o, m.body ≠ .call h o) :
    InvE c (enqueue k m s) := by
  refine ⟨?_, h.placeQ, ?_, h.loc⟩
  · intro hd l d
    have hs := h.sub hd l d
    simp only [pend] at hs ⊢
    by_cases e : c.locA hd.actor = k
    · subst e
      simp only [enqueue, upd_self, callU_append, callU_other c hd l d m hb, List.append_nil]; exact hs
    · simp only [enqueue, upd_ne _ _ _ _ e]; exact hs
  · intro l m' hd o hm he
    by_cases e : l = k
    · subst e
      simp only [enqueue, upd_self, List.mem_append, List.mem_singleton] at hm
      rcases hm with hm | rfl
      · exact h.placeI _ _ _ _ hm he
      · exact absurd he (hb hd o)
    · simp only [enqueue, upd_ne _ _ _ _ e] at hm
      exact h.placeI _ _ _ _ hm he

/-- taking a message that is no wrapped call -/
theorem invE_popOther (c : Cfg) (s : State) (k : Nat) (m : Msg) (rest : List Msg) (h : InvE c s) (hq : s.queue k = m :: rest)
    (hb : ∀ h o, m.body ≠ .call h o) : InvE c (popped k m rest s) ∧
    (∀ hd l d, m.src.map c.locA = some l → m.dest = d → c.locD d = k →
      (pend c (popped k m rest s) hd l d ++ [m.uid]).Sublist (tookU c l d (popped k m rest s).log)) := by
  have hp : ∀ hd l d, pend c (popped k m rest s) hd l d = pend c s hd l d := by
    intro hd l d
    simp only [pend, popped, execU_took]
    by_cases e : c.locA hd.actor = k
    · rw [e, upd_self, hq, callU_cons, callU_other c hd l d m hb]; rfl
    · rw [upd_ne _ _ _ _ e]
  refine ⟨⟨?_, ?_, h.placeI, ?_⟩, ?_⟩
  · intro hd l d
    rw [hp]
    simp only [popped, tookU_took]
    exact (h.sub hd l d).trans (List.sublist_append_left _ _)
  · intro l m' hd o hm he
    by_cases e : l = k
    · subst e; simp only [popped, upd_self] at hm; exact h.placeQ l m' hd o (by rw [hq]; simp [hm]) he
    · simp only [popped, upd_ne _ _ _ _ e] at hm; exact h.placeQ _ _ _ _ hm he
  · intro l hd o hm
    simp only [popped, List.mem_cons, reduceCtorEq, false_or] at hm
    exact h.loc l hd o hm
  · intro hd l d h1 h2 h3
    rw [hp]
    simp only [popped, tookU_took]
    rw [if_pos ⟨h3.symm, h1, h2⟩]
    exact (h.sub hd l d).append (List.Sublist.refl _)

/-- taking a wrapped call -/
theorem invE_popCall (c : Cfg) (s : State) (k : Nat) (m : Msg) (rest : List Msg) (hd : Handler) (o : Orig) (h : InvE c s)
    (hq : s.queue k = m :: rest) (hb : m.body = .call hd o) :
    InvE c (popped k m rest s) ∧ InvE c { popped k m rest s with log := .exec k hd o :: (popped k m rest s).log } := by
  obtain ⟨hk, hne, hmd⟩ := h.placeQ k m hd o (by rw [hq]; simp) hb
  have hcm : ∀ h' l d, callU c h' l d [m] = if hd = h' ∧ o.src.map c.locA = some l ∧ o.dest = d then [o.uid] else [] := by
    intro h' l d
    simp only [callU, List.filterMap_cons, List.filterMap_nil, hb]
    by_cases hc : hd = h' ∧ o.src.map c.locA = some l ∧ o.dest = d
    · simp only [if_pos hc]
    · simp only [if_neg hc]
  have hpl : ∀ l m' hd o, m' ∈ upd s.queue k rest l → m'.body = .call hd o → l = c.locA hd.actor ∧ c.locD o.dest ≠ c.locA hd.actor ∧ c.locD m'.dest = l := by
    intro l m' hd o hm he
    by_cases e : l = k
    · subst e; simp only [upd_self] at hm; exact h.placeQ l m' hd o (by rw [hq]; simp [hm]) he
    · simp only [upd_ne _ _ _ _ e] at hm; exact h.placeQ _ _ _ _ hm he
  -- the old list of things to be seen, with the call in front
  have hold : ∀ h' l d, c.locA h'.actor = k → pend c s h' l d = execU c h' l d s.log ++ callU c h' l d [m] ++ callU c h' l d rest ++ callU c h' l d (s.inb k) := by
    intro h' l d e
    simp only [pend, e, hq]
    rw [callU_cons]; simp only [List.append_assoc]
  constructor
  · refine ⟨?_, hpl, h.placeI, ?_⟩
    · intro h' l d
      have hs := h.sub h' l d
      simp only [popped, tookU_took]
      refine List.Sublist.trans ?_ (hs.trans (List.sublist_append_left _ _))
      by_cases e : c.locA h'.actor = k
      · rw [hold h' l d e]
        simp only [pend, popped, execU_took, e, upd_self]
        exact ((List.sublist_append_left _ _).append (List.Sublist.refl _)).append (List.Sublist.refl _)
      · simp only [pend, popped, execU_took, upd_ne _ _ _ _ e]
        exact List.Sublist.refl _
    · intro l hd o hm
      simp only [popped, List.mem_cons, reduceCtorEq, false_or] at hm
      exact h.loc l hd o hm
  · refine ⟨?_, hpl, h.placeI, ?_⟩
    · intro h' l d
      have hs := h.sub h' l d
      simp only [popped, tookU_took, tookU_exec]
      refine List.Sublist.trans ?_ (hs.trans (List.sublist_append_left _ _))
      by_cases e : c.locA h'.actor = k
      · rw [hold h' l d e, hcm]
        simp only [pend, popped, execU_took, execU_exec, e, upd_self]
        exact List.Sublist.refl _
      · simp only [pend, popped, execU_took, execU_exec, upd_ne _ _ _ _ e]
        rw [if_neg]
        · simp
        · rintro ⟨rfl, _⟩; exact e hk.symm
    · intro l hd' o' hm
      simp only [popped, List.mem_cons, reduceCtorEq, false_or, Ev.exec.injEq] at hm
      rcases hm with ⟨rfl, rfl, rfl⟩ | hm
      · exact hk
      · exact h.loc l hd' o' hm

theorem invE_forward (c : Cfg) (s : State) (k : Nat) (m : Msg) (rest : List Msg) (h : InvE c s) (hq : s.queue k = m :: rest)
    (hl : c.locD m.dest ≠ k) : InvE c (enqueue (c.locD m.dest) m (popped k m rest s)) := by
  have hb : ∀ h o, m.body ≠ .call h o := by
    intro hd o hb
    exact hl (h.placeQ k m hd o (by rw [hq]; simp) hb).2.2
  exact invE_enqueue c _ _ m (invE_popOther c s k m rest h hq hb).1 hb

end Verif.Net
