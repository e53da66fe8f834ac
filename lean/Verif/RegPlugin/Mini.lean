import Verif.RegPlugin.Steps
/-!
# Elementary steps of the registry plugin: an invariant of them is an invariant of the plugin
-/

namespace Verif.RegPlugin
open Verif

variable {c : Conf} {σ σ' : State}

/-- the address is stored -/
def State.put (σ : State) (v a : Nat) : Nat → Option Nat := fun x => if x = v then some a else σ.vars x

/-- the callback of a task that has got its address -/
def foundEv (n : Nat) (t : Task) (a : Nat) : List Ev := if t.cb then [.called n .discovering true (some a)] else []

inductive M (c : Conf) : State → State → Prop where
  | recvInit (σ : State) : σ.initReq = false → (∀ b, Ev.answer b ∉ σ.log) → M c σ { σ with initReq := true }
  | confL (σ σ' : State) : σ.confL = false → σ.st = .initializing → σ.initReq = true → links c.links { σ with confL := true } = .ok σ' → M c σ σ'
  | confR (σ σ' : State) : σ.confR = false → σ.st = .initializing → σ.initReq = true → σ.confL = true →
      wants c c.wants { σ with confR := true } = .ok σ' → M c σ σ'
  | offL (σ : State) : σ.confL = true → notLinking σ = true → M c σ { σ with rInitL := false }
  | offR (σ : State) : σ.confR = true → σ.disc = [] → hasRegistering σ = false → M c σ { σ with rInitR := false }
  | finI (σ : State) : σ.st = .initializing → σ.initReq = true → σ.rInitL = false → σ.rInitR = false → M c σ (initFinish σ)
  | regOk (σ : State) (n : Nat) (r : Reg) : n ∈ σ.qReg → σ.regs.find n = some r →
      M c σ { σ with qReg := rm σ.qReg n, log := .regRes n true :: σ.log, regs := σ.regs.set n { r with st := .operational } }
  | regErr (σ : State) (n : Nat) (r : Reg) : n ∈ σ.qReg → σ.regs.find n = some r → σ.initReq = true →
      M c σ { σ with qReg := rm σ.qReg n, log := .answer false :: .regRes n false :: σ.log, regs := σ.regs.erase n }
  | alias (σ : State) (n a : Nat) (t : Task) (names : List Nat) : n ∈ σ.qDisc → σ.disc.find n = some t → σ.st = .initializing →
      σ.al.find (some a) = some names →
      M c σ { σ with qDisc := rm σ.qDisc n, log := foundEv n t a ++ .discRes n (some a) :: σ.log, vars := σ.put t.v a,
                     al := σ.al.set (some a) (names ++ [n]) }
  | found (σ : State) (n a : Nat) (t : Task) : n ∈ σ.qDisc → σ.disc.find n = some t → σ.st = .initializing →
      σ.al.find (some a) = none → σ.srv.find a = none →
      M c σ { σ with qDisc := rm σ.qDisc n, log := .linkReq a (.task n) :: (foundEv n t a ++ .discRes n (some a) :: σ.log), vars := σ.put t.v a,
                     rInitL := true, qLink := σ.qLink ++ [a], srv := σ.srv.set a ⟨false, .task n⟩, al := σ.al.set (some a) [n] }
  | foundDown (σ : State) (n a : Nat) (t : Task) (d : AMap Nat Task) : n ∈ σ.qDisc → σ.disc.find n = some t → σ.st ≠ .initializing →
      (∀ m, d.find m = σ.disc.find m ∨ d.find m = none) → (σ.disc.keys.Nodup → d.keys.Nodup) →
      M c σ { σ with qDisc := rm σ.qDisc n, log := foundEv n t a ++ .discRes n (some a) :: σ.log, vars := σ.put t.v a, disc := d }
  | lostInit (σ : State) (n : Nat) (t : Task) : n ∈ σ.qDisc → σ.disc.find n = some t → σ.st = .initializing → σ.initReq = true →
      M c σ { σ with qDisc := rm σ.qDisc n, log := .answer false :: .discRes n none :: σ.log, disc := eraseNames n t σ }
  | lostDown (σ : State) (n : Nat) (t : Task) : n ∈ σ.qDisc → σ.disc.find n = some t → σ.st ≠ .initializing →
      M c σ { σ with qDisc := rm σ.qDisc n, log := .discRes n none :: σ.log, disc := eraseNames n t σ }
  | linkUser (σ : State) (a : Nat) (r : Srv) : a ∈ σ.qLink → σ.srv.find a = some r → r.cb = .user →
      M c σ { σ with qLink := rm σ.qLink a, log := .linkRes a true :: σ.log, srv := σ.srv.set a { r with operational := true } }
  | linkReg (σ : State) (a : Nat) (r : Srv) : a ∈ σ.qLink → σ.srv.find a = some r → r.cb = .registry →
      M c σ { onLink true { σ with qLink := rm σ.qLink a, log := .linkRes a true :: σ.log } with srv := σ.srv.set a { r with operational := true } }
  | linkTask (σ : State) (a n : Nat) (r : Srv) (t : Task) (names : List Nat) : a ∈ σ.qLink → σ.srv.find a = some r → r.cb = .task n →
      σ.disc.find n = some t → σ.al.find (σ.vars t.v) = some names → (∀ m, m ∈ names → ∃ t', σ.disc.find m = some t') → σ.st = .initializing →
      M c σ { σ with qLink := rm σ.qLink a, log := callEvs σ true names ++ .linkRes a true :: σ.log, disc := eraseNames n t σ,
                     srv := σ.srv.set a { r with operational := true } }
  | linkTaskDown (σ : State) (a n : Nat) (r : Srv) (t : Task) (names : List Nat) : a ∈ σ.qLink → σ.srv.find a = some r → r.cb = .task n →
      σ.disc.find n = some t → σ.al.find (σ.vars t.v) = some names → (∀ m, m ∈ names → ∃ t', σ.disc.find m = some t') → σ.st ≠ .initializing →
      M c σ { σ with qLink := rm σ.qLink a, log := callEvs σ true names ++ .linkRes a true :: σ.log, disc := eraseNames n t σ }
  | setOp (σ : State) (a : Nat) (r : Srv) : σ.st ≠ .initializing → σ.srv.find a = some r → a ∉ σ.qLink →
      M c σ { σ with srv := σ.srv.set a { r with operational := true } }
  | linkErr (σ : State) (a : Nat) (r : Srv) : a ∈ σ.qLink → σ.srv.find a = some r → (∀ n, r.cb ≠ .task n) →
      M c σ { σ with qLink := rm σ.qLink a, log := (if σ.initReq then [.answer false] else []) ++ .linkRes a false :: σ.log, srv := σ.srv.erase a,
                     linked := if r.cb = .registry then true else σ.linked, linking := if r.cb = .registry then false else σ.linking, initReq := false }
  | linkTaskErr (σ : State) (a n : Nat) (r : Srv) (t : Task) (names : List Nat) : a ∈ σ.qLink → σ.srv.find a = some r → r.cb = .task n →
      σ.disc.find n = some t → σ.al.find (σ.vars t.v) = some names → (∀ m, m ∈ names → ∃ t', σ.disc.find m = some t') →
      (σ.st = .initializing → σ.initReq = true) →
      M c σ { σ with qLink := rm σ.qLink a,
                     log := (if σ.st = .initializing then [.answer false] else []) ++ (callEvs σ false names ++ .linkRes a false :: σ.log),
                     disc := eraseNames n t σ, srv := σ.srv.erase a }
  | failReset (σ : State) : σ.initReq = true → M c σ { σ with initReq := false, log := .answer false :: σ.log }
  | shut (σ : State) : σ.st.rank < 5 → M c σ { σ with st := .shuttingDown, log := .shut :: σ.log }
  | names (σ : State) : σ.st = .shuttingDown → σ.rShutR = true → (shutNames σ).disc ≠ [] → M c σ (shutNames σ)
  | namesEnd (σ : State) : σ.st = .shuttingDown → σ.rShutR = true → (shutNames σ).disc = [] → M c σ { shutNames σ with al := [], rShutR := false }
  | client (σ : State) (b : Bool) : σ.st = .shuttingDown → σ.rShutR = false → M c σ { σ with srv := [], qLink := [], rShutL := b }
  | clientEnd (σ : State) : σ.st = .shuttingDown → σ.rShutR = false → M c σ { σ with rShutL := false }
  | finish (σ : State) : σ.st = .shuttingDown → σ.rShutL = false → M c σ { σ with st := .shutDown }
  | start (σ : State) : σ.st = .initialized → M c σ { σ with st := .operational }
  | dropReg (σ : State) (n : Nat) : σ.st = .shutDown → M c σ { σ with qReg := rm σ.qReg n }
  | dropDisc (σ : State) (n : Nat) : σ.st = .shutDown → M c σ { σ with qDisc := rm σ.qDisc n }
  | dropLink (σ : State) (n : Nat) : σ.st = .shutDown → M c σ { σ with qLink := rm σ.qLink n }
  | forget (σ : State) (a : Nat) (r : Srv) : σ.srv.find a = some r → r.operational = true → M c σ { σ with srv := σ.srv.erase a }

/-- chains -/
inductive Ms (c : Conf) : State → State → Prop where
  | refl (σ : State) : Ms c σ σ
  | tail {σ σ1 σ' : State} : Ms c σ σ1 → M c σ1 σ' → Ms c σ σ'

theorem Ms.one (h : M c σ σ') : Ms c σ σ' := .tail (.refl _) h
theorem Ms.trans {σ1 : State} (h1 : Ms c σ σ1) (h2 : Ms c σ1 σ') : Ms c σ σ' := by
  induction h2 with
  | refl => exact h1
  | tail _ h ih => exact .tail ih h
theorem Ms.head {σ1 : State} (h1 : M c σ σ1) (h2 : Ms c σ1 σ') : Ms c σ σ' := (Ms.one h1).trans h2

/-- what the proofs about single steps need: a request to a server belongs to a record -/
structure Base (σ : State) : Prop where
  nd : σ.qLink.Nodup
  pend : ∀ a, a ∈ σ.qLink → ∃ cb, σ.srv.find a = some ⟨false, cb⟩
  /-- a link that is not established keeps the reaction of the link client on -/
  on : σ.st = .initializing → ∀ a cb, σ.srv.find a = some ⟨false, cb⟩ → σ.rInitL = true ∧ σ.confL = true ∧ a ∈ σ.qLink
  rl : σ.st = .initializing → σ.rInitL = false → σ.confL = true
  rr : σ.rInitR = false → σ.confR = true
  cr : σ.confR = true → σ.confL = true
  dc : ∀ n t, σ.disc.find n = some t → σ.confR = true

theorem notLinking_iff : notLinking σ = true ↔ ∀ p, p ∈ σ.srv → p.2.operational = true := by
  unfold notLinking; simp

theorem notLinking_find (h : notLinking σ = true) {a : Nat} {r : Srv} (e : σ.srv.find a = some r) : r.operational = true :=
  notLinking_iff.1 h _ (AMap.mem_of_find e)

theorem find_filter {K V : Type} [DecidableEq K] (d : AMap K V) (f : K → Bool) (m : K) :
    AMap.find (d.filter (fun p => f p.1)) m = if f m then d.find m else none := by
  induction d with
  | nil => simp
  | cons p d ih =>
    obtain ⟨k, t⟩ := p
    simp only [List.filter_cons]
    split <;> simp only [AMap.find] <;> grind

theorem erase_find (n : Nat) (t : Task) (σ : State) (m : Nat) :
    (eraseNames n t σ).find m = match σ.al.find (σ.vars t.v) with
      | some names => if m ∈ names then none else σ.disc.find m
      | none => if m = n then none else σ.disc.find m := by
  unfold eraseNames
  split
  · rename_i h; rw [find_filter σ.disc (fun x => !List.contains _ x), h]; simp
  · rename_i h; rw [AMap.find_erase, h]

theorem erase_le (n : Nat) (t : Task) (σ : State) (m : Nat) (t' : Task) (h : (eraseNames n t σ).find m = some t') : σ.disc.find m = some t' := by
  rw [erase_find] at h
  split at h <;> split at h <;> first | exact h | cases h

theorem map_find (d : AMap Nat Task) (f : Task → Task) (m : Nat) :
    AMap.find (d.map (fun p : Nat × Task => (p.1, f p.2))) m = (d.find m).map f := by
  induction d with
  | nil => simp
  | cons p d ih =>
    obtain ⟨k, t⟩ := p
    simp only [List.map_cons, AMap.find]
    split <;> grind

theorem go_find (d : AMap Nat Task) (m : Nat) (t : Task) :
    AMap.find (d.map (fun p : Nat × Task => (p.1, p.2.going))) m = some t ↔ ∃ t', d.find m = some t' ∧ t = t'.going := by
  rw [map_find d Task.going m, Option.map_eq_some_iff]
  simp only [eq_comm (a := t)]

theorem find_filter_le {d : AMap Nat Task} {f : Nat × Task → Bool} (hn : d.keys.Nodup) {m : Nat} {t : Task}
    (h : AMap.find (d.filter f) m = some t) : d.find m = some t ∧ f (m, t) = true := by
  have h1 := AMap.mem_of_find h
  rw [List.mem_filter] at h1
  exact ⟨AMap.find_of_mem hn h1.1, h1.2⟩

theorem filter_keys {V : Type} {d : AMap Nat V} (f : Nat × V → Bool) (h : d.keys.Nodup) : (AMap.keys (d.filter f)).Nodup := by
  unfold AMap.keys at h ⊢
  exact List.Nodup.sublist (List.Sublist.map _ List.filter_sublist) h

theorem map_keys {d : AMap Nat Task} (f : Task → Task) : AMap.keys (d.map (fun p : Nat × Task => (p.1, f p.2))) = d.keys := by
  unfold AMap.keys; simp

theorem erase_keys {n : Nat} {t : Task} (h : σ.disc.keys.Nodup) : (eraseNames n t σ).keys.Nodup := by
  unfold eraseNames
  split
  · exact filter_keys _ h
  · exact filter_keys _ h

theorem shut_find (m : Nat) (t' : Task) (h : (shutNames σ).disc.find m = some t') :
    m ∈ σ.disc.keys ∧ t'.st = .cancelling := by
  have h1 := AMap.mem_of_find h
  simp only [shutNames, List.mem_map, List.mem_filter] at h1
  obtain ⟨p, ⟨h2, _⟩, h3⟩ := h1
  refine ⟨List.mem_map.2 ⟨p, h2, by grind⟩, by grind [Task.dropping]⟩

theorem mem_keys {K V : Type} [DecidableEq K] {d : AMap K V} {m : K} : m ∈ d.keys ↔ ∃ t, d.find m = some t := by
  have := AMap.find_eq_none_iff d m
  cases h : d.find m with
  | none => simp [h] at this; simp [this]
  | some t => simp [h] at this; simp [this]

theorem linkedTo_cases (c : Conf) (ws : List Want) (σ : State) :
    linkedTo c ws σ = σ ∧ (ws = [] ∨ σ.linking = true) ∨ σ.linking = false ∧ ws ≠ [] ∧ linkedTo c ws σ =
      { σ with linking := true, rInitL := true, qLink := σ.qLink ++ [c.reg], srv := σ.srv.set c.reg ⟨false, .registry⟩,
               log := .linkReq c.reg .registry :: σ.log } := by
  unfold linkedTo
  split
  · rename_i h; exact .inl ⟨rfl, h⟩
  · rename_i h
    have : ¬ ws = [] ∧ σ.linking = false := by simpa using h
    exact .inr ⟨this.2, this.1, rfl⟩

theorem base_init : Base State.init := by
  constructor <;> simp [State.init]

set_option maxHeartbeats 4000000 in
theorem Base.step (h : Base σ) (m : M c σ σ') : Base σ' := by
  obtain ⟨h1, h2, h3, h4, h5, h6, h7⟩ := h
  cases m
  case confL hc hs hi e =>
    obtain ⟨srv', b, e1, e2, e3, e4, e5, e6⟩ := links_spec e
    subst e1
    simp only at e2 e4 e6
    constructor
    · simp only; rw [List.nodup_append]; grind
    all_goals grind
  case confR hc hs hi hl e =>
    obtain ⟨regs', disc', e1, e2, e3, e4, e5, e6⟩ := wants_spec e
    subst e1
    simp only at e2 e3 e4 e5 e6
    rcases linkedTo_cases c c.wants { σ with confR := true } with ⟨e, -⟩ | ⟨f1, f2, e⟩
    · rw [e]
      constructor <;> grind
    · rw [e]
      have := e2 f2
      constructor
      · simp only; rw [List.nodup_append]; grind
      all_goals grind [AMap.find_set]
  case linkReg a r ha hr hb =>
    constructor <;> simp only [onLink, if_true, rm, go_find] <;> grind [AMap.find_set, List.Nodup.mem_erase_iff, List.Nodup.erase]
  case names =>
    have hf := @shut_find σ
    constructor <;> (try simp only [shutNames] at *) <;> grind [mem_keys]
  case namesEnd hd =>
    have hf := @shut_find σ
    constructor <;> (try simp only [shutNames] at *) <;> grind [mem_keys]
  case found =>
    constructor <;> simp only [rm]
    · rw [List.nodup_append]; grind
    · intro x hx
      rcases List.mem_append.1 hx with hx | hx
      · have := h2 x hx; rw [AMap.find_set]; grind
      · have := List.mem_singleton.1 hx; subst this; exact ⟨_, AMap.find_set_self _ _ _⟩
    all_goals (try simp only [List.mem_append, List.mem_singleton, AMap.find_set])
    all_goals grind
  case offL hc hl =>
    have := fun a r e => notLinking_find hl (a := a) (r := r) e
    constructor <;> grind
  all_goals (have hf := erase_le; constructor <;> simp only [initFinish, rm] <;>
    grind [AMap.find_set, AMap.find_erase, List.Nodup.mem_erase_iff, List.Nodup.erase, AMap.find_nil])

theorem Base.steps (h : Base σ) (m : Ms c σ σ') : Base σ' := by
  induction m with
  | refl => exact h
  | tail _ m ih => exact ih.step m

end Verif.RegPlugin
