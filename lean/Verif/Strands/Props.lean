import Verif.Strands.Model
/-!
# C65: code of a locality is never executed by two threads at once
-/

namespace Verif.Strands

/-- thread `t` executes code of actor `a`: one of its callbacks or handlers -/
def Executes (σ : State) (t a : Nat) : Prop :=
  ∃ k e, σ.threads t = some k ∧ σ.exec k = some e ∧ (e.pc = .callback a ∨ ∃ hs, e.pc = .handler a hs)

/-- thread `t` works on the queue and the subscriptions of the locality leader `l` -/
def WorksOn (T : Topo) (σ : State) (t l : Nat) : Prop :=
  ∃ k e, σ.threads t = some k ∧ σ.exec k = some e ∧ T.leader e.sup = l

theorem leaderF_strand (T : Topo) : ∀ f s, T.strand (T.leaderF f s) = T.strand s := by
  intro f
  induction f with
  | zero => intro s; rfl
  | succ f ih =>
    intro s
    simp only [Topo.leaderF]
    split
    · split
      · rename_i hs; rw [ih, hs]
      · rfl
    · rfl

theorem leader_strand (T : Topo) (s : Nat) : T.strand (T.leader s) = T.strand s := leaderF_strand T _ s

theorem leaderF_enough (T : Topo) : ∀ f g s, s < f → s < g → T.leaderF f s = T.leaderF g s := by
  intro f
  induction f with
  | zero => intro g s h; omega
  | succ f ih =>
    intro g s hf hg
    cases g with
    | zero => omega
    | succ g =>
      simp only [Topo.leaderF]
      split
      · rename_i p hp
        have := T.older s p hp
        split
        · exact ih g p (by omega) (by omega)
        · rfl
      · rfl

/-- `locality.cpp:35-37`: the leader of the parent, if the parent is in the same locality, otherwise the supervisor itself -/
theorem leader_eq (T : Topo) (s : Nat) : T.leader s =
    match T.parent s with
    | some p => if T.strand p = T.strand s then T.leader p else s
    | none => s := by
  unfold Topo.leader
  rw [Topo.leaderF]
  cases hp : T.parent s with
  | none => rfl
  | some p =>
    have := T.older s p hp
    simp only
    split
    · exact leaderF_enough T _ _ _ (by omega) (by omega)
    · rfl

/-- the supervisor of a closure -/
def Task.sup (T : Topo) : Task → Nat
  | .fwd _ a _ => T.supOf a
  | .timer a => T.supOf a
  | .process s => s

/-- the actors of a program counter -/
def Pc.actors : Pc → List Nat
  | .callback a => [a]
  | .deliver hs => hs
  | .handler a hs => a :: hs
  | _ => []

structure Inv (T : Topo) (σ : State) : Prop where
  tk : ∀ k t, t ∈ σ.tasks k → T.strand (t.sup T) = k
  ex : ∀ k e, σ.exec k = some e → T.strand e.sup = k
  pc : ∀ k e, σ.exec k = some e → ∀ a, a ∈ e.pc.actors → T.strand (T.supOf a) = k
  cb : ∀ k e a, σ.exec k = some e → e.pc = .callback a → e.sup = T.supOf a
  th : ∀ t k, σ.threads t = some k → σ.exec k ≠ none
  inj : ∀ t t' k, σ.threads t = some k → σ.threads t' = some k → t = t'

theorem Inv.init (T : Topo) : Inv T State.init := by
  constructor <;> simp [State.init]

theorem Inv.defer {T : Topo} {σ : State} (h : Inv T σ) (t : Task) : Inv T (defer (T.strand (t.sup T)) t σ) := by
  obtain ⟨tk, ex, pc, cb, th, inj⟩ := h
  refine ⟨?_, ex, pc, cb, th, inj⟩
  intro k t' ht
  simp only [Strands.defer, upd] at ht
  split at ht
  · rename_i hk
    rcases List.mem_append.1 ht with h | h
    · exact hk ▸ tk _ t' h
    · simp at h; rw [h, hk]
  · exact tk k t' ht

theorem Inv.congr {T : Topo} {σ σ' : State} (h : Inv T σ) (h1 : σ'.tasks = σ.tasks) (h2 : σ'.exec = σ.exec) (h3 : σ'.threads = σ.threads) : Inv T σ' := by
  obtain ⟨tk, ex, pc, cb, th, inj⟩ := h
  exact ⟨h1 ▸ tk, h2 ▸ ex, h2 ▸ pc, h2 ▸ cb, h2 ▸ h3 ▸ th, h3 ▸ inj⟩

theorem Inv.enqueue {T : Topo} {σ σ' : State} (h : Inv T σ) {s : Nat} {m : Msg} (e : enqueue T s m σ = .ok σ') : Inv T σ' := by
  unfold Strands.enqueue at e
  split at e
  · injection e with e
    subst e
    exact (Inv.defer h (.process s)).congr rfl rfl rfl
  · cases e

theorem Inv.deliverExternal {T : Topo} {m : Nat} : ∀ {l : List Nat} {σ σ' : State}, Inv T σ → deliverExternal T m l σ = .ok σ' → Inv T σ' ∧ σ'.exec = σ.exec := by
  intro l
  induction l with
  | nil => intro σ σ' h e; simp [Strands.deliverExternal] at e; subst e; exact ⟨h, rfl⟩
  | cons a l ih =>
    intro σ σ' h e
    simp only [Strands.deliverExternal] at e
    split at e
    · cases e
    · rename_i σ₁ e₁
      have h1 := ih (h.enqueue e₁) e
      refine ⟨h1.1, h1.2.trans ?_⟩
      unfold Strands.enqueue at e₁
      split at e₁
      · injection e₁ with e₁; subst e₁; rfl
      · cases e₁

theorem Inv.setPc {T : Topo} {σ : State} (h : Inv T σ) {k : Nat} {e e' : Exec} (he : σ.exec k = some e) (hs : e'.sup = e.sup) (p : Pc)
    (hp : ∀ a, a ∈ p.actors → T.strand (T.supOf a) = k) (hcb : ∀ a, p ≠ .callback a) : Inv T (setPc k e' p σ) := by
  obtain ⟨tk, ex, pc, cb, th, inj⟩ := h
  refine ⟨tk, ?_, ?_, ?_, ?_, inj⟩
  · intro k' e'' h'
    simp only [Strands.setPc, upd] at h'
    split at h'
    · rename_i hk; cases h'; simp only; rw [hs, hk]; exact ex k e he
    · exact ex k' e'' h'
  · intro k' e'' h' a ha
    simp only [Strands.setPc, upd] at h'
    split at h'
    · rename_i hk; cases h'; rw [hk]; exact hp a ha
    · exact pc k' e'' h' a ha
  · intro k' e'' a h' ha
    simp only [Strands.setPc, upd] at h'
    split at h'
    · cases h'; exact absurd ha (hcb a)
    · exact cb k' e'' a h' ha
  · intro t k' ht
    simp only [Strands.setPc, upd]
    split
    · simp
    · exact th t k' ht

theorem Inv.finish {T : Topo} {σ σ' : State} (h : Inv T σ) {k t : Nat} (e : finish k t σ = .ok σ') : Inv T σ' := by
  unfold Strands.finish at e
  split at e
  · rename_i ht
    injection e with e
    subst e
    obtain ⟨tk, ex, pc, cb, th, inj⟩ := h
    refine ⟨tk, ?_, ?_, ?_, ?_, ?_⟩
    · intro k' e' h'; simp only [upd] at h'; split at h'; cases h'; exact ex k' e' h'
    · intro k' e' h'; simp only [upd] at h'; split at h'; cases h'; exact pc k' e' h'
    · intro k' e' a h'; simp only [upd] at h'; split at h'; cases h'; exact cb k' e' a h'
    · intro t' k' h'
      simp only [upd] at h' ⊢
      split at h'
      · cases h'
      · rename_i hne
        split
        · rename_i hk; exact absurd (inj t' t k' h' (hk ▸ ht)) hne
        · exact th t' k' h'
    · intro t1 t2 k' h1 h2
      simp only [upd] at h1 h2
      split at h1
      · cases h1
      · split at h2
        · cases h2
        · exact inj t1 t2 k' h1 h2
  · cases e

theorem Inv.begin {T : Topo} {σ : State} (h : Inv T σ) {k t s : Nat} {own last : Bool} {p : Pc} (hs : T.strand s = k)
    (hp : ∀ a, a ∈ p.actors → T.strand (T.supOf a) = k) (hcb : ∀ a, p = .callback a → s = T.supOf a)
    (he : σ.exec k = none) :
    Inv T { σ with threads := upd σ.threads t (some k), exec := upd σ.exec k (some ⟨s, own, last, p⟩) } := by
  obtain ⟨tk, ex, pc, cb, th, inj⟩ := h
  refine ⟨tk, ?_, ?_, ?_, ?_, ?_⟩
  · intro k' e' h'; simp only [upd] at h'; split at h'
    · rename_i hk; cases h'; rw [hk]; exact hs
    · exact ex k' e' h'
  · intro k' e' h' a ha; simp only [upd] at h'; split at h'
    · rename_i hk; cases h'; rw [hk]; exact hp a ha
    · exact pc k' e' h' a ha
  · intro k' e' a h' ha; simp only [upd] at h'; split at h'
    · cases h'; exact hcb a ha
    · exact cb k' e' a h' ha
  · intro t' k' h'
    simp only [upd] at h' ⊢
    split
    · simp
    · rename_i hk
      split at h'
      · cases h'; exact absurd rfl hk
      · exact th t' k' h'
  · intro t1 t2 k' h1 h2
    simp only [upd] at h1 h2
    split at h1
    · rename_i e1
      cases h1
      split at h2
      · rename_i e2; rw [e1, e2]
      · exact absurd he (th t2 k h2)
    · split at h2
      · cases h2; exact absurd he (th t1 k h1)
      · exact inj t1 t2 k' h1 h2

/-- what `onExec` yields -/
theorem onExec_ok {T : Topo} {σ σ' : State} {k : Nat} {f : Exec → Except Err State} (h : onExec T σ k f = .ok σ') :
    ∃ e, σ.exec k = some e ∧ exist T e.sup σ = true ∧ f e = .ok σ' := by
  unfold onExec at h
  split at h
  · rename_i e he
    split at h
    · rename_i hx; exact ⟨e, he, hx, h⟩
    · cases h
  · cases h

theorem Inv.dispatch {T : Topo} {σ σ' : State} (h : Inv T σ) {k : Nat} {e : Exec} (he : σ.exec k = some e) {subs : List Nat} {alive : Bool}
    (h' : dispatch T k e subs alive σ = .ok σ') : Inv T σ' := by
  have hl : T.strand (T.leader e.sup) = k := by rw [leader_strand]; exact h.ex k e he
  unfold Strands.dispatch at h'
  simp only at h'
  split at h'
  · cases h'
  · rename_i msg q hq
    split at h'
    · rename_i hd
      split at h'
      · split at h'
        · cases h'
        · rename_i σ₁ e₁
          injection h' with h'
          subst h'
          have h1 := Inv.deliverExternal (h.congr (σ' := { σ with queue := upd σ.queue (T.leader e.sup) q, cur := upd σ.cur k _ }) rfl rfl rfl) e₁
          refine h1.1.setPc (e := e) (by rw [h1.2]; exact he) rfl _ ?_ (by simp)
          intro a ha
          simp [Pc.actors] at ha
          rw [ha.2, hl]
      · rename_i m a
        injection h' with h'
        subst h'
        refine (h.congr (σ' := { σ with queue := upd σ.queue (T.leader e.sup) q, cur := upd σ.cur k (.hcall m a) }) rfl rfl rfl).setPc (e := e) he rfl _ ?_ (by simp)
        intro b hb
        simp only [Pc.actors] at hb
        split at hb
        · simp at hb; rw [hb, ← hl]; exact hd
        · cases hb
    · exact (h.congr (σ' := { σ with queue := upd σ.queue (T.leader e.sup) q, cur := upd σ.cur k msg }) rfl rfl rfl).enqueue h'

theorem Inv.step {T : Topo} {σ σ' : State} (h : Inv T σ) {l : Label} (e : step T σ l = .ok σ') : Inv T σ' := by
  cases l with
  | send k m =>
    obtain ⟨x, hx, -, e⟩ := onExec_ok e
    split at e
    · unfold put at e
      simp only at e
      split at e
      · injection e with e; subst e; exact h.congr rfl rfl rfl
      · cases e
    · cases e
  | begin c a => injection e with e; subst e; exact h.congr rfl rfl rfl
  | complete c a ec =>
    simp only [Strands.step] at e
    split at e
    · unfold forward at e
      simp only at e
      split at e
      · cases e
      · split at e <;> injection e with e <;> subst e
        · exact (Inv.defer h (.fwd c a true)).congr rfl rfl rfl
        · exact (Inv.defer h (.fwd c a false)).congr rfl rfl rfl
    · cases e
  | expire a => injection e with e; subst e; exact Inv.defer (t := .timer a) h
  | enqueue s m => exact h.enqueue e
  | take k t there =>
    simp only [Strands.step] at e
    split at e
    · rename_i task ts _ he hts
      injection e with e
      have hk : T.strand (task.sup T) = k := h.tk k task (by rw [hts]; simp)
      have h1 : Inv T { σ with tasks := upd σ.tasks k ts } := by
        obtain ⟨tk, ex, pc, cb, th, inj⟩ := h
        refine ⟨?_, ex, pc, cb, th, inj⟩
        intro k' t' ht'
        simp only [upd] at ht'
        split at ht'
        · rename_i hk'; exact tk k' t' (by rw [hk', hts]; simp [ht'])
        · exact tk k' t' ht'
      subst e
      cases task with
      | fwd c a err =>
        exact (Inv.begin (T := T) (σ := { σ with tasks := upd σ.tasks k ts }) h1 (k := k) (t := t) (s := T.supOf a) (own := false) (last := true) (p := .callback a)
          hk (by intro b hb; simp [Pc.actors] at hb; rw [hb]; exact hk) (by intro b hb; cases hb; rfl) he).congr rfl rfl rfl
      | timer a =>
        simp only [start]
        split
        · exact Inv.begin (T := T) (σ := { σ with tasks := upd σ.tasks k ts }) h1 (k := k) (t := t) (s := T.supOf a) (p := .callback a)
            hk (by intro b hb; simp [Pc.actors] at hb; rw [hb]; exact hk) (by intro b hb; cases hb; rfl) he
        · exact h1
      | process s =>
        exact Inv.begin (T := T) (σ := { σ with tasks := upd σ.tasks k ts }) h1 (k := k) (t := t) (s := s) (p := .moving)
            hk (by intro b hb; simp [Pc.actors] at hb) (by intro b hb; cases hb) he
    · cases e
  | back k =>
    obtain ⟨x, hx, -, e⟩ := onExec_ok e
    split at e
    · injection e with e; subst e
      exact h.setPc hx rfl _ (by split <;> simp [Pc.actors]) (by split <;> simp)
    · cases e
  | pop k t =>
    obtain ⟨x, hx, -, e⟩ := onExec_ok e
    simp only at e
    split at e
    · split at e
      · injection e with e; subst e; exact h.congr rfl rfl rfl
      · split at e
        · injection e with e; subst e; exact h
        · split at e
          · exact h.finish e
          · injection e with e; subst e
            exact h.setPc hx rfl _ (by simp [Pc.actors]) (by simp)
    · cases e
  | dispatch k subs alive =>
    obtain ⟨x, hx, -, e⟩ := onExec_ok e
    split at e
    · exact h.dispatch hx e
    · cases e
  | call k =>
    obtain ⟨x, hx, -, e⟩ := onExec_ok e
    split at e
    · rename_i a hs hp
      injection e with e; subst e
      have := h.setPc hx rfl (.handler a hs) (by intro b hb; exact h.pc k x hx b (by rw [hp]; exact hb)) (by simp)
      exact this.congr rfl rfl rfl
    · injection e with e; subst e
      exact h.setPc hx rfl _ (by simp [Pc.actors]) (by simp)
    · cases e
  | handled k =>
    obtain ⟨x, hx, -, e⟩ := onExec_ok e
    split at e
    · rename_i a hs hp
      injection e with e; subst e
      exact h.setPc hx rfl _ (by intro b hb; exact h.pc k x hx b (by rw [hp]; simp [Pc.actors] at hb ⊢; exact .inr hb)) (by simp)
    · cases e
  | «return» k t poll =>
    obtain ⟨x, hx, -, e⟩ := onExec_ok e
    split at e
    · split at e
      · injection e with e; subst e
        exact h.setPc (e' := { x with last := true }) hx rfl .polling (by simp [Pc.actors]) (by simp)
      · exact h.finish e
    · cases e
  | leave k t =>
    obtain ⟨x, hx, -, e⟩ := onExec_ok e
    split at e
    · split at e
      · exact h.finish e
      · injection e with e; subst e
        exact h.setPc hx rfl _ (by simp [Pc.actors]) (by simp)
    · cases e
  | destroy s =>
    simp only [Strands.step] at e
    split at e
    · injection e with e; subst e; exact h.congr rfl rfl rfl
    · cases e

theorem Inv.run {T : Topo} {ls : List Label} : ∀ {σ σ' : State}, Inv T σ → Strands.run T σ ls = .ok σ' → Inv T σ' := by
  induction ls with
  | nil => intro σ σ' h e; simp [Strands.run] at e; exact e ▸ h
  | cons l ls ih =>
    intro σ σ' h e
    simp only [Strands.run] at e
    split at e
    · cases e
    · rename_i σ₁ e₁; exact ih (h.step e₁) e

/-- **C65** the code (handlers, results of asynchronous operations, timers) of the actors of one strand is executed by one thread at a time, however
many threads run the `io_context`, whatever is subscribed to whatever and wherever the actors and addresses are. -/
theorem C65_exclusive {T : Topo} {ls : List Label} {σ : State} (h : run T State.init ls = .ok σ) {t t' a b : Nat}
    (ha : Executes σ t a) (hb : Executes σ t' b) (hs : T.strand (T.supOf a) = T.strand (T.supOf b)) : t = t' := by
  have hi := (Inv.init T).run h
  obtain ⟨k, e, ht, he, hp⟩ := ha
  obtain ⟨k', e', ht', he', hp'⟩ := hb
  have h1 := hi.pc k e he a (by rcases hp with hp | ⟨hs, hp⟩ <;> simp [hp, Pc.actors])
  have h2 := hi.pc k' e' he' b (by rcases hp' with hp | ⟨hs, hp⟩ <;> simp [hp, Pc.actors])
  have : k = k' := by rw [← h1, ← h2, hs]
  subst this
  exact hi.inj t t' k ht ht'

/-- **C65** .. and so are the queue, the subscriptions and the timers of the supervisors of a locality; the thread that executes code of an actor
is the one that works on its locality. -/
theorem C65_leader_exclusive {T : Topo} {ls : List Label} {σ : State} (h : run T State.init ls = .ok σ) {t t' l l' : Nat}
    (ha : WorksOn T σ t l) (hb : WorksOn T σ t' l') (hs : T.strand l = T.strand l') : t = t' := by
  have hi := (Inv.init T).run h
  obtain ⟨k, e, ht, he, hp⟩ := ha
  obtain ⟨k', e', ht', he', hp'⟩ := hb
  have h1 := hi.ex k e he
  have h2 := hi.ex k' e' he'
  have : k = k' := by rw [← h1, ← h2, ← leader_strand T e.sup, ← leader_strand T e'.sup, hp, hp', hs]
  subst this
  exact hi.inj t t' k ht ht'

theorem C65_code_and_leader {T : Topo} {ls : List Label} {σ : State} (h : run T State.init ls = .ok σ) {t t' a : Nat}
    (ha : Executes σ t a) (hb : WorksOn T σ t' (T.leader (T.supOf a))) : t = t' := by
  have hi := (Inv.init T).run h
  obtain ⟨k, e, ht, he, hp⟩ := ha
  obtain ⟨k', e', ht', he', hp'⟩ := hb
  have h1 := hi.pc k e he a (by rcases hp with hp | ⟨hs, hp⟩ <;> simp [hp, Pc.actors])
  have h2 := hi.ex k' e' he'
  have : k = k' := by rw [← h1, ← h2, ← leader_strand T e'.sup, hp', leader_strand]
  subst this
  exact hi.inj t t' k ht ht'

end Verif.Strands
