import Verif.Subscription.LooseLemmas

/-!
# Properties C01, C02, C03: the subscription table

Read together with `Spec.lean`.  `Table.run w (Table.empty loc) ops` is the code's table after the
calls `ops`; `Spec.empty.run ops` is the list of live subscriptions after the same calls.
-/

set_option linter.unusedSimpArgs false

namespace Verif.Subscription
open Verif

/-- the world of the examples: handlers 10, 11, 12 take message type 1, the others type 2; handler
12 belongs to another locality; all addresses below 100 belong to locality 0 -/
def exWorld : World where
  msgType h := if h = 10 ∨ h = 11 ∨ h = 12 ∨ h = 20 then 1 else 2
  handlerLoc h := if h = 12 then 1 else 0
  addrLoc a := if a < 100 then 0 else 1

/-- **C01.** After any legal history of subscriptions, unsubscriptions and taggings, the table is
consistent (no fault occurred) and a message of type `ty` sent to `a` is handed to exactly the
handlers of the live subscriptions for `(a, ty)`, in subscription order, local handlers and
handlers of other localities separately. -/
theorem C01_dispatch_exact (w : World) (loc : Loc) (ops : List Op)
    (hl : Spec.legalHistory w Spec.empty ops) :
    ∃ t, (Table.empty loc).run w ops = .ok t ∧
      ∀ a ty, recipientsOf (t.getRecipients a ty) =
        ((Spec.empty.run ops).expected w loc a ty true, (Spec.empty.run ops).expected w loc a ty false) := by
  obtain ⟨t, h1, h2, h3⟩ := inv_run w ops _ _ (inv_empty w loc) hl
  refine ⟨t, h1, ?_⟩
  intro a ty
  simp only [Table.empty] at h2
  rw [Table.getRecipients, h3.mine, recipientsOf_optJoint, h2]

/-- a history with two addresses, a foreign handler, a forgotten subscription and a tagged one -/
def exOps : List Op :=
  [.subscribe 10 5, .subscribe 11 5, .subscribe 12 5, .subscribe 10 6, .forget 0, .tag 1 20]

example : Spec.legalHistory exWorld Spec.empty exOps ∧
    (Spec.empty.run exOps).expected exWorld 0 5 1 true = [20] ∧
    (Spec.empty.run exOps).expected exWorld 0 5 1 false = [12] ∧
    (Spec.empty.run exOps).expected exWorld 0 6 1 true = [10] := by
  simp +decide [exOps, Spec.legalHistory, Spec.legal, Spec.step, Spec.empty, Spec.run, Spec.expected, exWorld]

/-- **C01 (shared handler objects).** If the same handler object may be subscribed several times to
one address, the recipients are still exactly the live subscriptions, up to order. -/
theorem C01_dispatch_multiset (w : World) (loc : Loc) (ops : List Op)
    (hl : Spec.legalLooseHistory Spec.empty ops) :
    ∃ t, (Table.empty loc).run w ops = .ok t ∧
      ∀ a ty, (recipientsOf (t.getRecipients a ty)).1.Perm ((Spec.empty.run ops).expected w loc a ty true) ∧
              (recipientsOf (t.getRecipients a ty)).2.Perm ((Spec.empty.run ops).expected w loc a ty false) := by
  obtain ⟨t, h1, h2, h3⟩ := linv_run w ops _ _ (linv_empty w loc) hl
  refine ⟨t, h1, ?_⟩
  intro a ty
  simp only [Table.empty] at h2
  have := h3.mine a ty
  rw [h2] at this
  rw [Table.getRecipients]
  cases hf : t.mine.find (a, ty) with
  | none =>
    rw [hf] at this
    simp only [PermJoint] at this
    simp [recipientsOf, this.1, this.2]
  | some j => rw [hf] at this; exact ⟨this.1, this.2.1⟩

example : Spec.legalLooseHistory Spec.empty [.subscribe 10 5, .subscribe 11 5, .subscribe 10 5, .forget 2] ∧
    (Spec.empty.run [.subscribe 10 5, .subscribe 11 5, .subscribe 10 5, .forget 2]).expected exWorld 0 5 1 true
      = [10, 11] := by
  simp +decide [Spec.legalLooseHistory, Spec.legalLoose, Spec.step, Spec.empty, Spec.run, Spec.expected, exWorld]

/-- The restriction to distinct handler objects in `C01_dispatch_exact` is needed: undoing the
*second* subscription of a shared handler object removes its *first* entry, so the remaining
recipients come in another order than they were subscribed in. -/
theorem C01_shared_handler_order_counterexample :
    ∃ (w : World) (ops : List Op), Spec.legalLooseHistory Spec.empty ops ∧
      ∃ t, (Table.empty 0).run w ops = .ok t ∧
        (recipientsOf (t.getRecipients 5 1)).1 ≠ (Spec.empty.run ops).expected w 0 5 1 true := by
  refine ⟨exWorld, [.subscribe 10 5, .subscribe 11 5, .subscribe 10 5, .forget 2], ?_, ?_⟩
  · simp +decide [Spec.legalLooseHistory, Spec.legalLoose, Spec.step, Spec.empty]
  · exact ⟨_, rfl, by decide⟩

/-- **C02 (precision).** Undoing a live subscription succeeds; afterwards its own handler has
disappeared from the recipients of its key and every other subscription is where it was: the
recipients of every key are the former live subscriptions without the undone one, in the same
order. -/
theorem C02_unsubscribe_precise (w : World) (loc : Loc) (ops : List Op) (id : InfoId)
    (hl : Spec.legalHistory w Spec.empty ops) (hid : ∃ l ∈ (Spec.empty.run ops).live, l.id = id) :
    ∃ t t', (Table.empty loc).run w ops = .ok t ∧ t.forget w id = .ok t' ∧
      ∀ a ty own,
        (if own then (recipientsOf (t'.getRecipients a ty)).1 else (recipientsOf (t'.getRecipients a ty)).2) =
        ((((Spec.empty.run ops).live.filter (fun l => l.id ≠ id)).filter (fun l => decide (l.addr = a) &&
            decide (w.msgType l.handler = ty) && decide (w.addrLoc l.addr = loc) &&
            (decide (w.handlerLoc l.handler = loc) == own))).map (·.handler)) := by
  obtain ⟨t, h1, h2, h3⟩ := inv_run w ops _ _ (inv_empty w loc) hl
  obtain ⟨t', h4, h5, h6⟩ := inv_forget w t _ id h3 hid
  refine ⟨t, t', h1, h4, ?_⟩
  intro a ty own
  simp only [Table.empty] at h2
  have h7 : t'.mainLoc = loc := h5.trans h2
  have := h6.mine a ty
  rw [h7] at this
  rw [Table.getRecipients, this, recipientsOf_optJoint]
  cases own <;> rfl

example : ∃ l ∈ (Spec.empty.run exOps).live, l.id = 2 := by
  simp +decide [exOps, Spec.run, Spec.step, Spec.empty]

/-- **C02 (no residue).** The table of a locality is empty exactly when no subscription to an
address of the locality is live. -/
theorem C02_empty_iff_no_live (w : World) (loc : Loc) (ops : List Op)
    (hl : Spec.legalHistory w Spec.empty ops) :
    ∃ t, (Table.empty loc).run w ops = .ok t ∧
      ((t.infos = [] ∧ t.mine = []) ↔ (Spec.empty.run ops).liveHere w loc = []) := by
  obtain ⟨t, h1, h2, h3⟩ := inv_run w ops _ _ (inv_empty w loc) hl
  simp only [Table.empty] at h2
  refine ⟨t, h1, ?_, ?_⟩
  · rintro ⟨hi, _⟩
    apply List.filter_eq_nil_iff.2
    intro l hl' hc
    simp only [decide_eq_true_eq] at hc
    have := h3.infos l.addr
    rw [hi, AMap.find_nil, optList] at this
    split at this
    · rename_i he
      have hm : l.id ∈ idsAt w t.mainLoc (Spec.empty.run ops) l.addr := by
        simp only [idsAt, List.mem_map, List.mem_filter]
        exact ⟨l, ⟨hl', by simp [h2, hc]⟩, rfl⟩
      rw [he] at hm; simp at hm
    · simp at this
  · intro hn
    have hnone : ∀ l ∈ (Spec.empty.run ops).live, ¬ w.addrLoc l.addr = loc := by
      intro l hl' hc
      have : l ∈ (Spec.empty.run ops).liveHere w loc := by simp [Spec.liveHere, hl', hc]
      rw [hn] at this; simp at this
    constructor
    · apply AMap.eq_nil_of_find
      intro a
      rw [h3.infos, optList, if_pos]
      simp only [idsAt, List.map_eq_nil_iff, List.filter_eq_nil_iff, Bool.and_eq_true, decide_eq_true_eq, not_and]
      intro l hl' _; rw [h2]; exact hnone l hl'
    · apply AMap.eq_nil_of_find
      rintro ⟨a, ty⟩
      rw [h3.mine, optJoint, if_pos]
      constructor <;>
      · simp only [Spec.expected, List.map_eq_nil_iff, List.filter_eq_nil_iff, Bool.and_eq_true,
          decide_eq_true_eq, not_and, h2]
        intro l hl' h; exact absurd h.2 (hnone l hl')

/-- non-trivial: three subscriptions undone in another order leave nothing live -/
example : Spec.legalHistory exWorld Spec.empty
      [.subscribe 10 5, .subscribe 12 5, .subscribe 11 6, .forget 1, .forget 0, .forget 2] ∧
    (Spec.empty.run [.subscribe 10 5, .subscribe 12 5, .subscribe 11 6, .forget 1, .forget 0, .forget 2]).liveHere exWorld 0
      = [] := by
  simp +decide [Spec.legalHistory, Spec.legal, Spec.step, Spec.empty, Spec.run, Spec.liveHere, exWorld]

/-- **C03 (partial: actors whose supervisor is the locality leader).** Tagging a live subscription
succeeds and replaces its handler in place: every recipient list is the old one with this
subscription's handler exchanged, nothing else moves.  Missing for the full claim: actors of nested
supervisors, see `C03_tag_nested_always_faults`. -/
theorem C03_tag_in_place_partial (w : World) (loc : Loc) (ops : List Op) (id : InfoId) (h' : HandlerId)
    (hl : Spec.legalHistory w Spec.empty ops) (ht : (Spec.empty.run ops).legal w (.tag id h')) :
    ∃ t t', (Table.empty loc).run w ops = .ok t ∧ t.update w id h' = .ok t' ∧
      ∀ a ty own,
        (if own then (recipientsOf (t'.getRecipients a ty)).1 else (recipientsOf (t'.getRecipients a ty)).2) =
        ((Spec.empty.run ops).live.filter (fun l => decide (l.addr = a) &&
            decide (w.msgType l.handler = ty) && decide (w.addrLoc l.addr = loc) &&
            (decide (w.handlerLoc l.handler = loc) == own))).map
          (fun l => if l.id = id then h' else l.handler) := by
  obtain ⟨t, h1, h2, h3⟩ := inv_run w ops _ _ (inv_empty w loc) hl
  obtain ⟨t', h4, h5, h6⟩ := inv_tag w t _ id h' h3 ht
  refine ⟨t, t', h1, h4, ?_⟩
  intro a ty own
  simp only [Table.empty] at h2
  have h7 : t'.mainLoc = loc := h5.trans h2
  have := h6.mine a ty
  rw [h7] at this
  rw [Table.getRecipients, this, recipientsOf_optJoint]
  obtain ⟨x, hx, hxid, hty, hlc, _⟩ := ht
  have key : ∀ own, ((Spec.empty.run ops).step (.tag id h')).expected w loc a ty own =
      ((Spec.empty.run ops).live.filter (fun l => decide (l.addr = a) &&
            decide (w.msgType l.handler = ty) && decide (w.addrLoc l.addr = loc) &&
            (decide (w.handlerLoc l.handler = loc) == own))).map
          (fun l => if l.id = id then h' else l.handler) := by
    intro own
    unfold Spec.expected Spec.step
    apply filter_map_congr
    · intro l hl'
      split
      · rename_i hc
        have := live_unique_id h3 hl' hx (hc.trans hxid.symm)
        subst this
        simp [hty, hlc]
      · rfl
    · intro l _ _; split <;> rfl
  cases own
  · simp [key]
  · simp [key]

example : (Spec.empty.run exOps).legal exWorld (.tag 3 11) := by
  simp +decide [exOps, Spec.run, Spec.step, Spec.empty, Spec.legal, exWorld]

/-- **C03 (refutation for nested supervisors).** In a locality with a nested supervisor, after any
history whatsoever, tagging a subscription (to an address of the locality) of an actor that belongs
to the nested supervisor always runs into the failed assertion / dereference of `end()`: the code
looks into the nested supervisor's own table, which never gets an entry. -/
theorem C03_tag_nested_always_faults (w : World) (supOf : HandlerId → Nat) (leader : Nat) (loc : Loc)
    (ops : List Op) (l : Locality) (hrun : (Locality.init leader loc).run w supOf ops = .ok l)
    (id : InfoId) (info : Info) (hinfo : (l.tables l.leader).heap[id]? = some info)
    (hsup : supOf info.handler ≠ leader) (haddr : w.addrLoc info.addr = loc) (h' : HandlerId) :
    l.step w supOf (.tag id h') = .error .assertFailed := by
  obtain ⟨hn, hl, hloc⟩ := nested_run (l := Locality.init leader loc)
    (by intro i _; exact ⟨rfl, rfl⟩) hrun
  simp only [Locality.init] at hl hloc
  have hne := hn (supOf info.handler) (by rw [hl]; exact hsup)
  have hheap := heap_run (l := Locality.init leader loc) (by intro i; rfl) hrun (supOf info.handler)
  simp only [Locality.step, hinfo, Table.update, hheap, hne.1, hne.2, hloc, haddr, decide_true, if_true,
    AMap.find_nil]

/-- the situation arises: leader 0, actor of handler 10 owned by nested supervisor 1, one subscription -/
example : ∃ l, (Locality.init 0 0).run exWorld (fun h => if h = 10 then 1 else 0) [.subscribe 10 5] = .ok l ∧
    (l.tables l.leader).heap[0]? = some ⟨10, 5, true, true⟩ ∧
    l.step exWorld (fun h => if h = 10 then 1 else 0) (.tag 0 20) = .error .assertFailed :=
  ⟨_, rfl, rfl, rfl⟩

end Verif.Subscription
