import Verif.RegPlugin.Props
import Verif.RegPlugin.Run
/-!
# Discoveries that are under way when the shutdown begins

`do_cancel`, `registry.cpp:272-282`, and the last answer to a cancelled discovery, `registry.cpp:249-257`.
-/

namespace Verif.RegPlugin
open Verif

variable {c : Conf} {σ σ' : State}

/-- which tasks have been asked for -/
structure X (c : Conf) (σ : State) : Prop where
  x1 : ∀ n t, σ.disc.find n = some t → t.st ≠ .passive → Ev.discover n t.delayed ∈ σ.log
  x2 : ∀ n, Ev.cancel n ∈ σ.log → Ev.discover n true ∈ σ.log
  x3 : ∀ n t, n ∈ σ.qDisc → σ.disc.find n = some t → t.st ≠ .passive
  x4 : σ.st = .initializing → ∀ n t, σ.disc.find n = some t → t.st ≠ .cancelling
  x5 : σ.st = .initializing → ∀ n, n ∈ σ.qDisc → ∃ t, σ.disc.find n = some t
  x6 : ∀ n d, Ev.discover n d ∈ σ.log → ∃ v b, .disc n v d b ∈ c.wants
  x7 : ∀ n v d b, .disc n v d b ∈ c.wants → (∀ a, Ev.discRes n (some a) ∉ σ.log) → σ.vars v = none
  x8 : ∀ x names, σ.al.find x = some names → names ≠ []

theorem X_init : X c State.init := by
  constructor <;> simp [State.init]

set_option maxHeartbeats 8000000 in
theorem X.step (hg : c.Good) (hu : Uniq σ) (hk : K c σ) (h : X c σ) (m : M c σ σ') : X c σ' := by
  obtain ⟨hu1, hu2⟩ := hu
  obtain ⟨k0, kq0, kqd, -, kq1, -, -, -, k1, -, -, -⟩ := hk
  obtain ⟨h1, h2, h3, h4, h5, h6, h7, h8⟩ := h
  obtain ⟨hg, -⟩ := hg
  cases m
  case confL hc hs hi e =>
    obtain ⟨srv', b, e1, e2, e3, e4, e5, e6⟩ := links_spec e
    subst e1
    constructor <;> simp only [List.mem_append, List.mem_reverse, List.mem_map] <;> grind
  case confR hc hs hi hl e =>
    obtain ⟨regs', disc', e1, e2, e3, e4, e5, e6⟩ := wants_spec e
    subst e1
    simp only at e2 e3 e4 e5 e6
    obtain ⟨g1, g2, g3, g4, g5, g6, g7, g8, g9⟩ := kq0 hc
    rcases linkedTo_cases c c.wants { σ with confR := true } with ⟨e, -⟩ | ⟨f1, f2, e⟩
    · rw [e]
      simp only [g1, AMap.find_nil] at e3
      constructor <;> grind
    · rw [e]
      simp only [g1, AMap.find_nil] at e3
      constructor <;> grind
  case linkReg a r ha hr hb =>
    have hl : ∀ e, e ∈ σ.log → e ∈ (onLink true { σ with qLink := rm σ.qLink a, log := .linkRes a true :: σ.log }).log :=
      fun e he => mem_linkLog.2 (.inr (.inr (List.mem_cons_of_mem _ he)))
    constructor
    · simp only [onLink, if_true, go_find]
      rintro n t ⟨t', h, rfl⟩ -
      have := (mem_linkLog (σ := { σ with qLink := rm σ.qLink a, log := .linkRes a true :: σ.log }) (e := .discover n t'.delayed)).2
        (.inl ⟨n, t', rfl, AMap.mem_of_find h⟩)
      simpa [onLink, Task.going] using this
    · intro n hn
      rcases mem_linkLog.1 hn with ⟨_, _, hn, -⟩ | ⟨_, _, hn, -⟩ | hn
      · cases hn
      · cases hn
      · rcases List.mem_cons.1 hn with hn | hn
        · cases hn
        · exact hl _ (h2 n hn)
    · simp only [onLink, if_true, go_find]
      rintro n t - ⟨t', h, rfl⟩
      simp [Task.going]
    · simp only [onLink, if_true, go_find]
      rintro - n t ⟨t', h, rfl⟩
      simp [Task.going]
    · intro hs n hn
      simp only [onLink, if_true, List.mem_append] at hn
      simp only [onLink, if_true, go_find]
      rcases hn with hn | hn
      · obtain ⟨t, ht⟩ := h5 hs n hn; exact ⟨_, t, ht, rfl⟩
      · obtain ⟨t, ht⟩ := mem_keys.1 hn; exact ⟨_, t, ht, rfl⟩
    · intro n d hn
      rcases mem_linkLog.1 hn with ⟨m, t, hn, ht⟩ | ⟨_, _, hn, -⟩ | hn
      · cases hn
        exact ⟨_, _, k0 _ t (AMap.find_of_mem hu1 ht)⟩
      · cases hn
      · rcases List.mem_cons.1 hn with hn | hn
        · cases hn
        · exact h6 n d hn
    · intro n v d b hw ha
      exact h7 n v d b hw (fun x hx => ha x (hl _ hx))
    · exact h8
  case names hs hr hd =>
    have hf := @shut_find' σ hu1
    have hl : ∀ e, e ∈ σ.log → e ∈ (shutNames σ).log := fun e he => mem_shutLog.2 (.inr (.inr he))
    have hc : ∀ n, Ev.cancel n ∈ (shutNames σ).log → Ev.discover n true ∈ σ.log := by
      intro n hn
      rcases mem_shutLog.1 hn with ⟨m, hn, t, ht, hw⟩ | ⟨_, hn, -⟩ | hn
      · cases hn
        have := h1 n t (AMap.find_of_mem hu1 ht)
        simp only [waits, Bool.and_eq_true, decide_eq_true_eq] at hw
        rw [hw.1, hw.2] at this
        exact this (by simp)
      · cases hn
      · exact h2 n hn
    have hdis : ∀ n d, Ev.discover n d ∈ (shutNames σ).log ↔ Ev.discover n d ∈ σ.log := by simp [mem_shutLog]
    constructor
    · intro n t ht hp
      obtain ⟨t0, h0, rfl⟩ := hf ht
      have hm := AMap.mem_of_find ht
      simp only [shutNames, List.mem_map, List.mem_filter] at hm
      obtain ⟨⟨m, t1⟩, ⟨g8, h9⟩, h10⟩ := hm
      have := AMap.find_of_mem hu1 g8
      simp only [waits, Bool.and_eq_true, decide_eq_true_eq] at h9
      have hp1 : m = n := congrArg Prod.fst h10
      rw [hp1, h0] at this
      injection this with this
      have h11 := h1 n t0 h0 (by rw [this, h9.2]; simp)
      exact hl _ h11
    · exact fun n hn => hl _ (hc n hn)
    · intro n t _ ht
      obtain ⟨t0, h0, rfl⟩ := hf ht
      simp [Task.dropping]
    · intro h; rw [show (shutNames σ).st = σ.st from rfl, hs] at h; cases h
    · intro h; rw [show (shutNames σ).st = σ.st from rfl, hs] at h; cases h
    · intro n d hn; exact h6 n d ((hdis n d).1 hn)
    · intro n v d b hw ha; exact h7 n v d b hw (fun x hx => ha x (hl _ hx))
    · exact h8
  case namesEnd hs hr hd =>
    have hl : ∀ e, e ∈ σ.log → e ∈ (shutNames σ).log := fun e he => mem_shutLog.2 (.inr (.inr he))
    have hc : ∀ n, Ev.cancel n ∈ (shutNames σ).log → Ev.discover n true ∈ σ.log := by
      intro n hn
      rcases mem_shutLog.1 hn with ⟨m, hn, t, ht, hw⟩ | ⟨_, hn, -⟩ | hn
      · cases hn
        have := h1 n t (AMap.find_of_mem hu1 ht)
        simp only [waits, Bool.and_eq_true, decide_eq_true_eq] at hw
        rw [hw.1, hw.2] at this
        exact this (by simp)
      · cases hn
      · exact h2 n hn
    have hdis : ∀ n d, Ev.discover n d ∈ (shutNames σ).log ↔ Ev.discover n d ∈ σ.log := by simp [mem_shutLog]
    constructor
    · intro n t ht; simp only [hd] at ht; cases ht
    · exact fun n hn => hl _ (hc n hn)
    · intro n t _ ht; simp only [hd] at ht; cases ht
    · intro h; rw [show (shutNames σ).st = σ.st from rfl, hs] at h; cases h
    · intro h; rw [show (shutNames σ).st = σ.st from rfl, hs] at h; cases h
    · intro n d hn; exact h6 n d ((hdis n d).1 hn)
    · intro n v d b hw ha; exact h7 n v d b hw (fun x hx => ha x (hl _ hx))
    · intro x names hx; cases hx
  case found n a t hq ht hs ha hr =>
    have := k0 n t ht
    constructor <;> simp only [List.mem_cons, List.mem_append, mem_foundEv, mem_rm kqd, State.put, AMap.find_set] <;> grind
  case alias n a t names hq ht hs ha =>
    have := k0 n t ht
    have hne : names ++ [n] ≠ [] := by simp
    constructor <;> simp only [List.mem_cons, List.mem_append, mem_foundEv, mem_rm kqd, State.put, AMap.find_set] <;> grind
  case foundDown n a t d hq hfd ht hdk hs =>
    have hkn := k0 n t (by assumption)
    constructor <;> simp only [List.mem_cons, List.mem_append, mem_foundEv, mem_rm kqd, State.put] <;> grind
  case lostInit n t hq ht hs hi =>
    constructor <;> simp only [List.mem_cons, mem_rm kqd, erase_find] <;> grind
  case lostDown n t hq ht hs =>
    constructor <;> simp only [List.mem_cons, mem_rm kqd, erase_find] <;> grind
  case linkTask a n r t names hq ht hn hall hst hr hcb =>
    constructor <;> simp only [List.mem_cons, List.mem_append, mem_callEvs, erase_find] <;> grind
  case linkTaskDown a n r t names hq ht hn hall hst hr hcb =>
    constructor <;> simp only [List.mem_cons, List.mem_append, mem_callEvs, erase_find] <;> grind
  case linkTaskErr a n r t names hq ht hn hall hst hr hcb =>
    by_cases hin : σ.st = .initializing <;>
    (constructor <;> simp only [hin, List.mem_cons, List.mem_append, mem_callEvs, erase_find, reduceCtorEq, if_true, if_false] <;> grind)
  case shut => constructor <;> simp only [List.mem_cons] <;> grind
  case dropDisc n hs => constructor <;> simp only [mem_rm kqd] <;> grind
  all_goals (constructor <;> (try simp only [initFinish]) <;> grind)

theorem Reach.x (hg : c.Good) (h : Reach c NoPoke σ) : X c σ := by
  induction h with
  | init => exact X_init
  | @step σ σ' op h hp e ih =>
    have hi := h.inv hg
    have m := sim_step hi.b (op := op) (by cases op <;> first | rfl | exact absurd hp (by simp [NoPoke])) e
    have : ∀ {τ : State}, Ms c σ τ → Inv c τ ∧ X c τ := by
      intro τ m
      induction m with
      | refl => exact ⟨hi, ih⟩
      | tail _ m ih2 => exact ⟨ih2.1.step hg m, ih2.2.step hg ih2.1.u ih2.1.k m⟩
    exact (this m).2

/-- C49: only a delayed discovery that has been sent to the registry is cancelled; and the shutdown cancels every delayed discovery that the registry
has not answered -/
theorem C49_cancel (hg : c.Good) (h : Reach c NoPoke σ) (n : Nat) :
    (Ev.cancel n ∈ σ.log → Ev.discover n true ∈ σ.log) ∧
    ∀ o σ', σ.st = .initializing → σ.rShutR = true → Ev.discover n true ∈ σ.log → n ∈ σ.qDisc → o.agree = true → step c σ (.shut o) = .ok σ' →
      Ev.cancel n ∈ σ'.log := by
  refine ⟨(h.x hg).x2 n, fun o σ' hs hr hd hq ho e => ?_⟩
  have hi := h.inv hg
  have hx := h.x hg
  obtain ⟨t, ht⟩ := hx.x5 hs n hq
  have h1 := hx.x3 n t hq ht
  have h2 := hx.x4 hs n t ht
  obtain ⟨v, b, h3⟩ := hx.x6 n true hd
  have h4 := (hg.1 _ _ _ _ _ _ _ _ (hi.k.k0 n t ht) h3 (.inl rfl)).2.2.1
  have hw : waits t = true := by
    cases h5 : t.st with
    | passive => exact absurd h5 h1
    | cancelling => exact absurd h5 h2
    | discovering => simp [waits, h4, h5]
  have hc : ∀ l : List Ev, Ev.cancel n ∈ (shutNames { σ with st := .shuttingDown, log := l }).log :=
    fun l => mem_shutLog.2 (.inl ⟨n, rfl, t, AMap.mem_of_find ht, hw⟩)
  simp only [step, hs, AState.rank, shutdownContinue, ho, hr, if_true] at e
  rw [if_pos (by decide)] at e
  have hp : ∀ τ : State, (pollClientDown o τ).log = τ.log := by
    intro τ
    unfold pollClientDown shutClient
    by_cases c1 : τ.rShutL <;> by_cases c2 : τ.srv.isEmpty <;> by_cases c3 : o.clients <;> simp [c1, c2, c3]
  unfold shutRegistry at e
  split at e
  · rename_i h6
    split at h6
    · cases h6; cases e; rw [hp]; exact hc _
    · cases h6
  · rename_i h6
    split at h6
    · cases h6
    · cases h6; cases e; exact hc _

/-- C49: the answer to the last discovery the shutdown waits for lets the shutdown go on: with a cancellation, an error, or an address that was not found under
another name. (An address found under another name: see `C49_stays_counterexample`.) -/
theorem C49_last_answer_partial (hg : c.Good) (h : Reach c NoPoke σ) {n : Nat} {t : Task} {res : Option Nat} {o : Ora} (hs : σ.st = .shuttingDown)
    (hr : σ.rShutR = true) (hd : σ.disc = [(n, t)]) (hq : n ∈ σ.qDisc) (ho : o.agree = true)
    (ha : ∀ a, res = some a → ∀ m, Ev.discRes m (some a) ∉ σ.log) :
    ∃ σ', step c σ (.discRes n res o) = .ok σ' ∧ σ'.rShutR = false ∧ σ'.disc = [] := by
  have hi := h.inv hg
  have hx := h.x hg
  have ht : σ.disc.find n = some t := by rw [hd]; simp [AMap.find]
  have hp : ∀ τ : State, (pollClientDown o τ).rShutR = τ.rShutR ∧ (pollClientDown o τ).disc = τ.disc := by
    intro τ
    unfold pollClientDown shutClient
    by_cases c1 : τ.rShutL <;> by_cases c2 : τ.srv.isEmpty <;> by_cases c3 : o.clients <;> simp [c1, c2, c3]
  have hcont : ∀ τ : State, τ.st = .shuttingDown → τ.rShutR = true → τ.disc = [] → ∃ σ', shutdownContinue o τ = .ok σ' ∧ σ'.rShutR = false ∧ σ'.disc = [] := by
    intro τ h1 h2 h3
    have h4 : (shutNames τ).disc = [] := by simp [shutNames, h3]
    refine ⟨pollClientDown o { { shutNames τ with al := [] } with rShutR := false }, ?_, (hp _).1, (hp _).2.trans h4⟩
    unfold shutdownContinue shutRegistry
    rw [if_pos h1, if_pos ho, if_pos h2, h4]
    rfl
  have hpost : ∀ (ok : Bool) (τ : State), τ.st = .shuttingDown → τ.rShutR = true → τ.disc = [(n, t)] → τ.al.find (τ.vars t.v) = none →
      ∃ σ', postDiscovery c n ok o τ = .ok σ' ∧ σ'.rShutR = false ∧ σ'.disc = [] := by
    intro ok τ h1 h2 h3 h4
    have h5 : eraseNames n t τ = [] := by simp [eraseNames, h4, h3, AMap.erase]
    have h6 : τ.disc.find n = some t := by rw [h3]; simp [AMap.find]
    unfold postDiscovery
    simp only [h6, h5, List.isEmpty_nil, true_or, if_true, h1, reduceCtorEq, if_false]
    exact hcont _ rfl h2 rfl
  have hnone : ∀ x, (∀ a, x = some a → ∀ m, Ev.discRes m (some a) ∉ σ.log) → σ.al.find x = none := by
    intro x hxa
    cases hf : σ.al.find x with
    | none => rfl
    | some l =>
      obtain ⟨a, h1, h2⟩ := hi.k.k1 x l hf
      cases l with
      | nil => exact absurd rfl (hx.x8 x [] hf)
      | cons m l => exact absurd (h2 m (by simp)) (hxa a h1 m)
  have hv : σ.vars t.v = none := hx.x7 n _ _ _ (hi.k.k0 n t ht) (fun a => hi.k.q1 n _ hq)
  simp only [step, hs, if_pos hq, reduceCtorEq, if_false]
  unfold onDiscovery
  simp only [ht]
  cases res with
  | none => exact hpost false _ rfl hr hd (by simp only [hv]; exact hnone none (fun a h => by cases h))
  | some a =>
    have h1 : (store n t a { σ with st := .shuttingDown, qDisc := rm σ.qDisc n, log := .discRes n (some a) :: σ.log }).st = .shuttingDown := by
      unfold store; simp only; split <;> rfl
    simp only [h1, reduceCtorEq, if_false]
    refine hpost true _ h1 ?_ ?_ ?_
    · unfold store; simp only; split <;> exact hr
    · unfold store; simp only; split <;> exact hd
    · have h2 : σ.al.find (some a) = none := hnone (some a) (fun a' h m => by cases h; exact ha a rfl m)
      unfold store; simp only; split <;> simp [State.ev, h2]

/-- the hypotheses can be met: a delayed discovery is under way .. -/
example : after c3 (linkedUp ++ [.discRes 2 (some 50) yes, .regRes 1 true yes, .linkRes 50 true yes yes])
    (fun σ => decide (σ.st = .initializing ∧ σ.rShutR = true ∧ Ev.discover 3 true ∈ σ.log ∧ 3 ∈ σ.qDisc)) = true := by decide

/-- .. it is cancelled; the registry may still answer with an address -/
example : after c3 (linkedUp ++ [.discRes 2 (some 50) yes, .regRes 1 true yes, .linkRes 50 true yes yes, .shut yes])
    (fun σ => decide (σ.st = .shuttingDown ∧ σ.rShutR = true ∧ σ.disc = [(3, ⟨30, true, true, .cancelling⟩)] ∧ 3 ∈ σ.qDisc ∧ Ev.cancel 3 ∈ σ.log)) = true := by
  decide
example : after c3 (linkedUp ++ [.discRes 2 (some 50) yes, .regRes 1 true yes, .linkRes 50 true yes yes, .shut yes, .discRes 3 (some 60) yes])
    (fun σ => decide (σ.rShutR = false ∧ σ.disc = [] ∧ σ.rShutL = false)) = true := by decide

end Verif.RegPlugin
