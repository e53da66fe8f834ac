import Verif.Routing.Lemmas

/-!
# C08: the second hop of a routed message
-/

namespace Verif.Routing

/-- number of hops in a log -/
def hops (log : List Ev) : Nat := log.countP fun e => match e with | .hop _ => true | _ => false

/-- **C08, safety.** In every interleaving of any number of recipients: the message takes its second hop at
most once; before the hop everybody who got the message from the first address has finished with it, and
nobody gets it from there afterwards. (The log has the newest event first.) -/
theorem C08_hop_once_after_all (ops : List Op) :
    hops (run .init ops).log ≤ 1 ∧
    ∀ before after i, (run .init ops).log = after ++ .hop i :: before →
      (∀ j, .start j ∈ before → .finish j ∈ before) ∧ ∀ j, .start j ∉ after := by
  have hi := inv_run ops .init inv_init
  refine ⟨?_, hi.closed⟩
  have : hops (run .init ops).log = if (run .init ops).route then 0 else 1 := hi.hops
  rw [this]; split <;> omega

/-- **C08, single owner.** When the hop is taken nobody else refers to the message: it sits in the queue
with one reference. -/
theorem C08_hop_has_single_owner (ops : List Op) (h : hops (run .init ops).log = 1) :
    (run .init ops).queued = true ∧ (run .init ops).holders = [] ∧ (run .init ops).count = 1 := by
  have hi := inv_run ops .init inv_init
  have hh : hops (run .init ops).log = if (run .init ops).route then 0 else 1 := hi.hops
  rw [h] at hh
  have hr : (run .init ops).route = false := by
    cases hr : (run .init ops).route with
    | false => rfl
    | true => rw [hr] at hh; simp at hh
  have hq : (run .init ops).queued = true := by rw [hi.q, hr]; rfl
  exact ⟨hq, hi.qh hq, by simp [State.count, hq, hi.qh hq]⟩

/-! ## the hop is taken -/

def sawing (h : Holder) : Bool := match h.phase with | .saw _ => true | _ => false

/-- at most one holder is between its test and its action -/
def OneAtATime (s : State) : Prop := (s.holders.countP sawing) ≤ 1

def NoCapture (ops : List Op) : Prop := ∀ i, .capture i ∉ ops

/-- as long as the hop has not been taken there is a holder, and one that has read a count above one is
not the last -/
structure Live (s : State) : Prop where
  some_ : s.route = true → s.holders ≠ []
  chk : ∀ h ∈ s.holders, h.checks = true
  more : ∀ h ∈ s.holders, ∀ n, h.phase = .saw n → n ≠ 1 → ∃ h' ∈ s.holders, h'.id ≠ h.id ∧ sawing h' = false

theorem two_saw {l : List Holder} {a b : Holder} (ha : a ∈ l) (hb : b ∈ l) (hne : a ≠ b) (h1 : sawing a = true) (h2 : sawing b = true) :
    2 ≤ l.countP sawing := by
  induction l with
  | nil => simp at ha
  | cons x l ih =>
    simp only [List.countP_cons]
    rcases List.mem_cons.1 ha with ha' | ha' <;> rcases List.mem_cons.1 hb with hb' | hb'
    · exact absurd (ha'.trans hb'.symm) hne
    · have : 0 < l.countP sawing := List.countP_pos_iff.2 ⟨b, hb', h2⟩
      rw [← ha', h1]; simp only [if_true]; omega
    · have : 0 < l.countP sawing := List.countP_pos_iff.2 ⟨a, ha', h1⟩
      rw [← hb', h2]; simp only [if_true]; omega
    · have := ih ha' hb'; omega

theorem live_step (s : State) (op : Op) (hi : Inv s) (hl : Live s) (h1 : OneAtATime s) (h2 : OneAtATime (step s op)) (hc : ∀ i, op ≠ .capture i) :
    Live (step s op) := by
  cases op with
  | capture i => exact absurd rfl (hc i)
  | wrap =>
    simp only [step]
    cases hg : get s.holders 0 with
    | none => exact hl
    | some h =>
      simp only
      by_cases hb : h.phase = .busy
      · rw [if_pos hb]
        refine ⟨fun _ => by simp, ?_, ?_⟩
        · intro h' hm'
          simp only [List.mem_append, List.mem_singleton] at hm'
          rcases hm' with hm' | rfl
          · exact hl.chk h' hm'
          · rfl
        · intro h' hm' n hp hn
          simp only [List.mem_append, List.mem_singleton] at hm'
          rcases hm' with hm' | rfl
          · obtain ⟨x, hx, h3⟩ := hl.more h' hm' n hp hn
            exact ⟨x, by simp [hx], h3⟩
          · simp at hp
      · rw [if_neg hb]; exact hl
  | dropCaptured i =>
    simp only [step]
    cases hg : get s.holders i with
    | none => exact hl
    | some h =>
      simp only
      rw [if_neg]
      · exact hl
      · rw [hl.chk h (get_mem hg).1]; simp
  | finish i =>
    simp only [step]
    cases hg : get s.holders i with
    | none => exact hl
    | some h =>
      simp only
      by_cases hb : h.phase = .busy ∧ h.checks = true
      · rw [if_pos hb]
        refine ⟨?_, ?_, ?_⟩
        · intro hr he
          have := hl.some_ hr
          cases hh : s.holders with
          | nil => exact this hh
          | cons x l => rw [hh] at he; simp [setPhase] at he
        · intro h' hm'
          rcases mem_setPhase hm' with ⟨h3, _⟩ | ⟨h0, h3, _, rfl⟩
          · exact hl.chk h' h3
          · exact hl.chk h0 h3
        · intro h' hm' n hp hn
          rcases mem_setPhase hm' with ⟨h3, h4⟩ | ⟨h0, h3, h4, rfl⟩
          · obtain ⟨x, hx, h5, h6⟩ := hl.more h' h3 n hp hn
            by_cases e : x.id = i
            · refine ⟨{ x with phase := .done }, ?_, h5, rfl⟩
              simp only [setPhase, List.mem_map]
              exact ⟨x, hx, by rw [if_pos e]⟩
            · refine ⟨x, ?_, h5, h6⟩
              simp only [setPhase, List.mem_map]
              exact ⟨x, hx, by rw [if_neg e]⟩
          · simp at hp
      · rw [if_neg hb]; exact hl
  | load i =>
    simp only [step] at h2 ⊢
    cases hg : get s.holders i with
    | none => exact hl
    | some h =>
      rw [hg] at h2
      simp only at h2 ⊢
      by_cases hb : h.phase = .done
      · rw [if_pos hb] at h2 ⊢
        obtain ⟨hm, hid⟩ := get_mem hg
        obtain ⟨hr, hq⟩ := route_of_holder hi hm
        have hself : ({ h with phase := .saw s.count } : Holder) ∈ setPhase s.holders i (.saw s.count) := by
          simp only [setPhase, List.mem_map]; exact ⟨h, hm, by rw [if_pos hid]⟩
        refine ⟨?_, ?_, ?_⟩
        · intro _ he; simp only at he; rw [he] at hself; simp at hself
        · intro h' hm'
          rcases mem_setPhase hm' with ⟨h3, _⟩ | ⟨h0, h3, _, rfl⟩
          · exact hl.chk h' h3
          · exact hl.chk h0 h3
        · intro h' hm' n hp hn
          have hsaw : sawing h' = true := by simp [sawing, hp]
          rcases mem_setPhase hm' with ⟨h3, h4⟩ | ⟨h0, h3, h4, rfl⟩
          · exfalso
            have := two_saw (l := setPhase s.holders i (.saw s.count)) hm' hself (by
              intro he; rw [he] at h4; exact h4 hid) hsaw rfl
            simp only [OneAtATime] at h2; omega
          · simp only [Phase.saw.injEq] at hp
            have hlen : s.holders.length ≠ 1 := by
              intro he; apply hn; rw [← hp, State.count, he, hq]; rfl
            have hpos : ∃ x ∈ s.holders, x.id ≠ i := by
              by_cases hex : ∃ x ∈ s.holders, x.id ≠ i
              · exact hex
              · exfalso
                have hall : ∀ x ∈ s.holders, x = h := by
                  intro x hx
                  refine uniq hi.nodup hx hm ?_
                  by_cases e : x.id = i
                  · rw [e, hid]
                  · exact absurd ⟨x, hx, e⟩ hex
                have hnd := hi.nodup
                cases hh : s.holders with
                | nil => rw [hh] at hm; simp at hm
                | cons a l =>
                  cases l with
                  | nil => rw [hh] at hlen; exact hlen rfl
                  | cons b l =>
                    rw [hh] at hnd hall
                    have e1 := hall a (by simp)
                    have e2 := hall b (by simp)
                    simp [e1, e2] at hnd
            obtain ⟨x, hx, hne⟩ := hpos
            have hxm : x ∈ setPhase s.holders i (.saw s.count) := by
              simp only [setPhase, List.mem_map]; exact ⟨x, hx, by rw [if_neg hne]⟩
            refine ⟨x, hxm, by simp only [h4]; exact hne, ?_⟩
            cases hs : sawing x with
            | false => rfl
            | true =>
              exfalso
              have := two_saw (l := setPhase s.holders i (.saw s.count)) hxm hself (by
                intro he; rw [he] at hne; exact hne hid) hs rfl
              simp only [OneAtATime] at h2; omega
      · rw [if_neg hb]; exact hl
  | act i =>
    simp only [step]
    cases hg : get s.holders i with
    | none => exact hl
    | some h =>
      simp only
      cases hp : h.phase with
      | busy => exact hl
      | done => exact hl
      | saw n =>
        simp only
        obtain ⟨hm, hid⟩ := get_mem hg
        have hsaw : sawing h = true := by simp [sawing, hp]
        by_cases hc' : s.route = true ∧ n = 1
        · rw [if_pos hc']
          obtain ⟨_, rfl⟩ := hc'
          obtain ⟨_, hone⟩ := hi.saw1 h hm hp
          have hempty : remove s.holders i = [] := by rw [hone]; simp [remove, hid]
          exact ⟨fun hr => by simp at hr, by rw [hempty]; simp, by rw [hempty]; simp⟩
        · rw [if_neg hc']
          have hr := (route_of_holder hi hm).1
          obtain ⟨x, hx, hne, hns⟩ := hl.more h hm n hp (fun hn => hc' ⟨hr, hn⟩)
          have hxm : x ∈ remove s.holders i := mem_remove.2 ⟨hx, by rw [← hid]; exact hne⟩
          refine ⟨fun _ he => by simp only at he; rw [he] at hxm; simp at hxm, fun h' hm' => hl.chk h' (mem_remove.1 hm').1, ?_⟩
          intro h' hm' k hk _
          exfalso
          have hm2 := mem_remove.1 hm'
          have := two_saw hm2.1 hm (by intro he; rw [he] at hm2; exact hm2.2 hid) (by simp [sawing, hk]) hsaw
          simp only [OneAtATime] at h1; omega

/-- **C08, the hop is taken** whenever no two holders are between their test of `use_count() == 1` and their
action at the same time (and nobody captures the pointer): once nobody uses the message any more, it has
taken its hop. This covers every run in which all recipients live in the locality of the address, and every
run in which the foreign calls end at different times.

Missing for the full claim: two holders at the end of their life at the same time, where the claim is false
(`C08_lost_hop_counterexample`). -/
theorem C08_hop_taken_partial (ops : List Op) (hc : NoCapture ops) (ho : Along OneAtATime .init ops)
    (hend : (run .init ops).holders = []) : hops (run .init ops).log = 1 := by
  have key : ∀ (ops : List Op) (s : State), NoCapture ops → Along OneAtATime s ops → Inv s → Live s → Live (run s ops) := by
    intro ops
    induction ops with
    | nil => intro s _ _ _ hl; exact hl
    | cons op ops ih =>
      intro s hc ho hi hl
      have hone : OneAtATime (step s op) := by
        cases ops with
        | nil => exact ho.2
        | cons _ _ => exact ho.2.1
      exact ih (step s op) (fun i hm => hc i (List.mem_cons_of_mem _ hm)) ho.2 (inv_step s op hi)
        (live_step s op hi hl ho.1 hone (fun i he => hc i (by simp [he])))
  have hl := key ops .init hc ho inv_init ⟨fun _ => by simp [State.init], by simp [State.init], by simp [State.init]⟩
  have hi := inv_run ops .init inv_init
  have hr : (run .init ops).route = false := by
    cases hr : (run .init ops).route with
    | false => rfl
    | true => exact absurd hend (hl.some_ hr)
  have : hops (run .init ops).log = if (run .init ops).route then 0 else 1 := hi.hops
  rw [this, hr]; rfl

/-- **C08, recipients of one locality.** If no recipient is foreign (and the pointer is not captured), the
hop is taken as soon as the loop is done with the message. -/
theorem C08_hop_taken_local (ops : List Op) (hw : .wrap ∉ ops) (hc : NoCapture ops) (hend : (run .init ops).holders = []) :
    hops (run .init ops).log = 1 := by
  refine C08_hop_taken_partial ops hc ?_ hend
  have key : ∀ (ops : List Op) (s : State), .wrap ∉ ops → NoCapture ops → s.holders.length ≤ 1 → Along OneAtATime s ops := by
    intro ops
    induction ops with
    | nil => intro s _ _ h; exact Nat.le_trans List.countP_le_length h
    | cons op ops ih =>
      intro s hw hc h
      refine ⟨Nat.le_trans List.countP_le_length h, ih _ (fun hm => hw (by simp [hm])) (fun i hm => hc i (by simp [hm])) ?_⟩
      cases op with
      | wrap => exact absurd (by simp) hw
      | capture i => exact absurd (by simp) (hc i)
      | dropCaptured i =>
        simp only [step]
        split
        · split
          · exact Nat.le_trans (List.length_filter_le _ _) h
          · exact h
        · exact h
      | finish i =>
        simp only [step]
        split
        · split
          · simpa [setPhase] using h
          · exact h
        · exact h
      | load i =>
        simp only [step]
        split
        · split
          · simpa [setPhase] using h
          · exact h
        · exact h
      | act i =>
        simp only [step]
        split
        · split
          · split
            · exact Nat.le_trans (List.length_filter_le _ _) h
            · exact Nat.le_trans (List.length_filter_le _ _) h
          · exact h
        · exact h
  exact key ops .init hw hc (by simp [State.init])

/-- **C08, no leak.** A holder that has made its test has, after its action, no reference any more. -/
theorem C08_reference_dropped (ops : List Op) (i : Nat) (h : Holder) (n : Nat) (hm : h ∈ (run .init ops).holders) (hid : h.id = i)
    (hp : h.phase = .saw n) : ∀ h' ∈ (run .init (ops ++ [.act i])).holders, h'.id ≠ i := by
  have hi := inv_run ops .init inv_init
  have hrun : run .init (ops ++ [.act i]) = step (run .init ops) (.act i) := by simp [run]
  rw [hrun]
  have hg : get (run .init ops).holders i = some h := by
    cases hg : get (run .init ops).holders i with
    | none =>
      simp only [get, List.find?_eq_none, decide_eq_true_eq] at hg
      exact absurd hid (hg h hm)
    | some h' => rw [uniq hi.nodup (get_mem hg).1 hm ((get_mem hg).2.trans hid.symm)]
  intro h' hm'
  simp only [step, hg, hp] at hm'
  split at hm' <;> exact (mem_remove.1 hm').2

/-! ## concrete cases -/

/-- two foreign recipients that end one after the other, the loop in between: the last one sends the message
on -/
example : (run .init [.wrap, .wrap, .finish 2, .load 2, .act 2, .finish 0, .load 0, .act 0, .finish 1, .load 1, .act 1]).log =
    [.hop 1, .finish 1, .finish 0, .finish 2, .start 2, .start 1, .start 0] := by decide

example : NoCapture [.wrap, .wrap, .finish 2, .load 2, .act 2, .finish 0, .load 0, .act 0, .finish 1, .load 1, .act 1] ∧
    Along OneAtATime .init [.wrap, .wrap, .finish 2, .load 2, .act 2, .finish 0, .load 0, .act 0, .finish 1, .load 1, .act 1] ∧
    (run .init [.wrap, .wrap, .finish 2, .load 2, .act 2, .finish 0, .load 0, .act 0, .finish 1, .load 1, .act 1]).holders = [] := by
  refine ⟨by simp [NoCapture], ?_, by decide⟩
  simp only [Along, OneAtATime]
  decide

/-- nobody is subscribed: the hop is taken at once -/
example : (run .init [.finish 0, .load 0, .act 0]).log = [.hop 0, .finish 0, .start 0] := by decide

/-- **C08, the hop can be lost.** One foreign recipient: its thread and the loop both read `use_count()` as 2,
then both drop their reference. Everybody has finished, the message is gone, and it was never sent on. -/
theorem C08_lost_hop_counterexample :
    let s := run .init [.wrap, .finish 0, .finish 1, .load 0, .load 1, .act 0, .act 1]
    s.holders = [] ∧ s.queued = false ∧ hops s.log = 0 ∧ ∀ i, .start i ∈ s.log → .finish i ∈ s.log := by
  refine ⟨by decide, by decide, by decide, ?_⟩
  intro i hi
  have : (run .init [.wrap, .finish 0, .finish 1, .load 0, .load 1, .act 0, .act 1]).log = [.finish 1, .finish 0, .start 1, .start 0] := by decide
  rw [this] at hi ⊢
  simp only [List.mem_cons, reduceCtorEq, Ev.start.injEq, List.not_mem_nil, or_false, false_or] at hi
  rcases hi with rfl | rfl <;> simp

/-- a captured pointer that is dropped last loses the hop as well (documented in
`include/rotor/actor_base.h:138-140`) -/
theorem C08_captured_counterexample :
    let s := run .init [.capture 0, .finish 0, .load 0, .act 0, .dropCaptured 1]
    s.holders = [] ∧ hops s.log = 0 := by decide

end Verif.Routing
