import Verif.RegPlugin.Sim
import Verif.RegPlugin.Spec
/-!
# Invariants of the registry plugin
-/

namespace Verif.RegPlugin
open Verif

variable {c : Conf} {σ σ' : State}

theorem mem_foundEv {n a : Nat} {t : Task} {e : Ev} : e ∈ foundEv n t a ↔ t.cb = true ∧ e = .called n .discovering true (some a) := by
  unfold foundEv; split <;> simp_all

theorem mem_callEvs {ok : Bool} {names : List Nat} {e : Ev} : e ∈ callEvs σ ok names ↔
    ∃ n t, n ∈ names ∧ σ.disc.find n = some t ∧ t.cb = true ∧ e = .called n .linking ok (σ.vars t.v) := by
  unfold callEvs
  rw [List.mem_reverse, List.mem_filterMap]
  constructor
  · rintro ⟨n, h1, h2⟩
    split at h2
    · rename_i t ht
      split at h2
      · rename_i hc
        injection h2 with h2
        exact ⟨n, t, h1, ht, hc, h2.symm⟩
      · cases h2
    · cases h2
  · rintro ⟨n, t, h1, h2, h3, h4⟩
    exact ⟨n, h1, by simp [h2, h3, h4]⟩

theorem shut_find' (hn : σ.disc.keys.Nodup) {m : Nat} {t' : Task} (h : (shutNames σ).disc.find m = some t') :
    ∃ t, σ.disc.find m = some t ∧ t' = t.dropping := by
  unfold shutNames at h
  simp only at h
  rw [map_find _ Task.dropping m, Option.map_eq_some_iff] at h
  obtain ⟨t, h1, h2⟩ := h
  exact ⟨t, (find_filter_le hn h1).1, h2.symm⟩

theorem mem_shutLog {e : Ev} : e ∈ (shutNames σ).log ↔
    (∃ n, e = .cancel n ∧ ∃ t, (n, t) ∈ σ.disc ∧ waits t = true) ∨ (∃ n, e = .dereg n ∧ ∃ r, (n, r) ∈ σ.regs ∧ r.st = .operational) ∨ e ∈ σ.log := by
  unfold shutNames
  simp only [List.mem_append, List.mem_reverse, List.mem_map, List.mem_filter, decide_eq_true_eq, Prod.exists]
  grind

theorem mem_linkLog {e : Ev} : e ∈ (onLink true σ).log ↔
    (∃ n t, e = .discover n t.delayed ∧ (n, t) ∈ σ.disc) ∨ (∃ n r, e = .register n r.a ∧ (n, r) ∈ σ.regs) ∨ e ∈ σ.log := by
  unfold onLink
  simp only [if_true, List.mem_append, List.mem_reverse, List.mem_map, Prod.exists]
  grind

/-- the keys are unique -/
structure Uniq (σ : State) : Prop where
  d : σ.disc.keys.Nodup
  r : σ.regs.keys.Nodup

theorem uniq_init : Uniq State.init := by constructor <;> simp [State.init, AMap.keys]

theorem Uniq.step (h : Uniq σ) (m : M c σ σ') : Uniq σ' := by
  obtain ⟨h1, h2⟩ := h
  cases m
  case confL hc hs hi e =>
    obtain ⟨srv', b, e1, e2, e3, e4, e5, e6⟩ := links_spec e
    subst e1; exact ⟨h1, h2⟩
  case confR hc hs hi hl e =>
    obtain ⟨regs', disc', e1, e2, e3, e4, e5, e6⟩ := wants_spec e
    subst e1; exact ⟨e5 h1, e6 h2⟩
  case regOk => exact ⟨h1, AMap.keys_set_nodup _ _ _ h2⟩
  case regErr => exact ⟨h1, filter_keys _ h2⟩
  case foundDown hd => exact ⟨hd h1, h2⟩
  case linkReg => exact ⟨by simp only [onLink, if_true, map_keys Task.going]; exact h1, h2⟩
  case names => exact ⟨by simp only [shutNames, map_keys Task.dropping]; exact filter_keys _ h1, by simp [shutNames, AMap.keys]⟩
  case namesEnd => exact ⟨by simp only [shutNames, map_keys Task.dropping]; exact filter_keys _ h1, by simp [shutNames, AMap.keys]⟩
  case lostInit => exact ⟨erase_keys h1, h2⟩
  case lostDown => exact ⟨erase_keys h1, h2⟩
  case linkTask => exact ⟨erase_keys h1, h2⟩
  case linkTaskDown => exact ⟨erase_keys h1, h2⟩
  case linkTaskErr => exact ⟨erase_keys h1, h2⟩
  all_goals exact ⟨h1, h2⟩

/-- discoveries: what is in the maps is what the registry has answered -/
structure K (c : Conf) (σ : State) : Prop where
  k0 : ∀ n t, σ.disc.find n = some t → .disc n t.v t.delayed t.cb ∈ c.wants
  q0 : σ.confR = false → σ.disc = [] ∧ σ.regs = [] ∧ σ.linking = false ∧ σ.linked = false ∧ σ.qDisc = [] ∧ σ.qReg = [] ∧
    (∀ n x, Ev.discRes n x ∉ σ.log) ∧ (∀ n x, Ev.regRes n x ∉ σ.log) ∧ (∀ a b r, σ.srv.find a = some ⟨b, r⟩ → r = .user)
  qd : σ.qDisc.Nodup
  qr : σ.qReg.Nodup
  q1 : ∀ n x, n ∈ σ.qDisc → Ev.discRes n x ∉ σ.log
  q2 : ∀ n x, n ∈ σ.qReg → Ev.regRes n x ∉ σ.log
  ra : ∀ a b, σ.srv.find a = some ⟨b, .registry⟩ → a = c.reg
  q3 : ∀ a, σ.srv.find a = some ⟨false, .registry⟩ → σ.qDisc = [] ∧ σ.qReg = [] ∧ (∀ n x, Ev.discRes n x ∉ σ.log) ∧ (∀ n x, Ev.regRes n x ∉ σ.log)
  k1 : ∀ x names, σ.al.find x = some names → ∃ a, x = some a ∧ ∀ n, n ∈ names → Ev.discRes n (some a) ∈ σ.log
  k2 : ∀ a b n, σ.srv.find a = some ⟨b, .task n⟩ → Ev.discRes n (some a) ∈ σ.log
  k3 : ∀ n t a, σ.disc.find n = some t → Ev.discRes n (some a) ∈ σ.log → σ.vars t.v = some a
  k4 : ∀ n a, σ.st = .initializing → Ev.discRes n (some a) ∈ σ.log → ∃ names, σ.al.find (some a) = some names ∧ n ∈ names

theorem K_init : K c State.init := by
  constructor <;> simp [State.init]

theorem nodup_rm {l : List Nat} {n : Nat} (h : l.Nodup) : (rm l n).Nodup := List.Nodup.erase _ h
theorem mem_rm {l : List Nat} {n m : Nat} (h : l.Nodup) : m ∈ rm l n ↔ m ≠ n ∧ m ∈ l := List.Nodup.mem_erase_iff h

set_option maxHeartbeats 8000000 in
theorem K.step (hg : c.Good) (hb : Base σ) (hu : Uniq σ) (h : K c σ) (m : M c σ σ') : K c σ' := by
  obtain ⟨hu1, hu2⟩ := hu
  obtain ⟨hb1, hb2, -, -, -, hb6, hb7⟩ := hb
  obtain ⟨h0, h1, h2, h3, h4, h5, hra, h6, h7, h8, h9, h10⟩ := h
  obtain ⟨hg, -⟩ := hg
  cases m
  case confL hc hs hi e =>
    obtain ⟨srv', b, e1, e2, e3, e4, e5, e6⟩ := links_spec e
    subst e1
    simp only at e2 e4 e6
    constructor <;> simp only [List.mem_append, List.mem_reverse, List.mem_map] <;> grind
  case confR hc hs hi hl e =>
    obtain ⟨regs', disc', e1, e2, e3, e4, e5, e6⟩ := wants_spec e
    subst e1
    simp only at e2 e3 e4 e5 e6
    obtain ⟨g1, g2, g3, g4, g5, g6, g7, g8, g9⟩ := h1 hc
    rcases linkedTo_cases c c.wants { σ with confR := true } with ⟨e, -⟩ | ⟨f1, f2, e⟩
    · rw [e]
      simp only [g1, AMap.find_nil] at e3
      constructor <;> grind
    · rw [e]
      simp only [g1, AMap.find_nil] at e3
      constructor <;> simp only [AMap.find_set] <;> grind
  case linkReg a r ha hr hb =>
    obtain ⟨cb, hp⟩ := hb2 a ha
    have hrr : r = ⟨false, .registry⟩ := by rw [hp] at hr; cases hr; simp only at hb; rw [hb]
    subst hrr
    obtain ⟨g1, g2, g3, g4⟩ := h6 a hr
    have hl : ∀ e, (∀ n, e ≠ Ev.discover n true) → (∀ n, e ≠ Ev.discover n false) → (∀ n x, e ≠ Ev.register n x) → e ≠ Ev.linkRes a true →
        e ∈ (onLink true { σ with qLink := rm σ.qLink a, log := .linkRes a true :: σ.log }).log → e ∈ σ.log := by
      intro e he1 he1' he2 he3 hm
      rw [mem_linkLog] at hm
      rcases hm with ⟨n, t, hm, -⟩ | ⟨n, r, hm, -⟩ | hm
      · cases ht : t.delayed <;> rw [ht] at hm
        · exact absurd hm (he1' n)
        · exact absurd hm (he1 n)
      · exact absurd hm (he2 _ _)
      · rcases List.mem_cons.1 hm with hm | hm
        · exact absurd hm he3
        · exact hm
    have hld : ∀ n x, Ev.discRes n x ∉ (onLink true { σ with qLink := rm σ.qLink a, log := .linkRes a true :: σ.log }).log :=
      fun n x hm => g3 n x (hl _ (by simp) (by simp) (by simp) (by simp) hm)
    have hlr : ∀ n x, Ev.regRes n x ∉ (onLink true { σ with qLink := rm σ.qLink a, log := .linkRes a true :: σ.log }).log :=
      fun n x hm => g4 n x (hl _ (by simp) (by simp) (by simp) (by simp) hm)
    constructor
    · simp only [onLink, if_true, go_find]
      rintro n t ⟨t', h, rfl⟩
      exact h0 n t' h
    · intro hc
      have := (h1 hc).2.2.2.2.2.2.2.2 a false .registry hr
      cases this
    · simp only [onLink, if_true, g1, List.nil_append]; exact hu1
    · simp only [onLink, if_true, g2, List.nil_append]; exact hu2
    · exact fun n x _ => hld n x
    · exact fun n x _ => hlr n x
    · intro x b hx
      simp only [AMap.find_set] at hx
      split at hx
      · rename_i hxa; rw [hxa]; exact hra _ _ hr
      · exact hra _ _ hx
    · intro x hx
      exfalso
      simp only [AMap.find_set] at hx
      split at hx
      · cases hx
      · rename_i hxa
        exact hxa ((hra _ _ hx).trans (hra _ _ hr).symm)
    · intro x names hx
      obtain ⟨a', e1, e2⟩ := h7 x names hx
      refine ⟨a', e1, fun n hn => ?_⟩
      exact absurd (e2 n hn) (g3 _ _)
    · intro x b n hx
      simp only [AMap.find_set] at hx
      split at hx
      · cases hx
      · exact absurd (h8 _ _ _ hx) (g3 _ _)
    · exact fun n t x _ hm => absurd hm (hld _ _)
    · exact fun n x _ hm => absurd hm (hld _ _)
  case names hs hr hd =>
    have hf := @shut_find' σ hu1
    have hl1 : ∀ n x, Ev.discRes n x ∈ (shutNames σ).log ↔ Ev.discRes n x ∈ σ.log := by simp [mem_shutLog]
    have hl2 : ∀ n x, Ev.regRes n x ∈ (shutNames σ).log ↔ Ev.regRes n x ∈ σ.log := by simp [mem_shutLog]
    have hd : ∀ t : Task, t.dropping.v = t.v ∧ t.dropping.delayed = t.delayed ∧ t.dropping.cb = t.cb := fun t => ⟨rfl, rfl, rfl⟩
    have e1 : (shutNames σ).confR = σ.confR := rfl
    have e2 : (shutNames σ).srv = σ.srv := rfl
    have e3 : (shutNames σ).al = σ.al := rfl
    have e4 : (shutNames σ).vars = σ.vars := rfl
    have e5 : (shutNames σ).qDisc = σ.qDisc := rfl
    have e6 : (shutNames σ).qReg = σ.qReg := rfl
    have e7 : (shutNames σ).st = σ.st := rfl
    have e8 : (shutNames σ).linking = σ.linking := rfl
    have e9 : (shutNames σ).linked = σ.linked := rfl
    have e10 : (shutNames σ).regs = [] := rfl
    have e11 : σ.disc = [] → (shutNames σ).disc = [] := fun h => by simp [shutNames, h]
    constructor <;> (try simp only [hl1, hl2, e1, e2, e3, e4, e5, e6, e7, e8, e9, e10]) <;> grind
  case namesEnd hs hr hd =>
    have hl1 : ∀ n x, Ev.discRes n x ∈ (shutNames σ).log ↔ Ev.discRes n x ∈ σ.log := by simp [mem_shutLog]
    have hl2 : ∀ n x, Ev.regRes n x ∈ (shutNames σ).log ↔ Ev.regRes n x ∈ σ.log := by simp [mem_shutLog]
    have e1 : (shutNames σ).confR = σ.confR := rfl
    have e2 : (shutNames σ).srv = σ.srv := rfl
    have e4 : (shutNames σ).vars = σ.vars := rfl
    have e5 : (shutNames σ).qDisc = σ.qDisc := rfl
    have e6 : (shutNames σ).qReg = σ.qReg := rfl
    have e7 : (shutNames σ).st = σ.st := rfl
    have e8 : (shutNames σ).linking = σ.linking := rfl
    have e9 : (shutNames σ).linked = σ.linked := rfl
    have e10 : (shutNames σ).regs = [] := rfl
    constructor <;> (try simp only [hl1, hl2, e1, e2, e4, e5, e6, e7, e8, e9, e10, hd, AMap.find_nil]) <;> grind
  case found n a t hq ht hs ha hr =>
    have hl1 : ∀ m x, Ev.discRes m x ∈ Ev.linkReq a (.task n) :: (foundEv n t a ++ .discRes n (some a) :: σ.log) ↔
      (m = n ∧ x = some a) ∨ Ev.discRes m x ∈ σ.log := by simp [mem_foundEv]
    have hl2 : ∀ m x, Ev.regRes m x ∈ Ev.linkReq a (.task n) :: (foundEv n t a ++ .discRes n (some a) :: σ.log) ↔ Ev.regRes m x ∈ σ.log := by
      simp [mem_foundEv]
    constructor <;> simp only [hl1, hl2, mem_rm h2, State.put, AMap.find_set] <;> grind [nodup_rm]
  case alias n a t names hq ht hs ha =>
    have hl1 : ∀ m x, Ev.discRes m x ∈ (foundEv n t a ++ .discRes n (some a) :: σ.log) ↔
      (m = n ∧ x = some a) ∨ Ev.discRes m x ∈ σ.log := by simp [mem_foundEv]
    have hl2 : ∀ m x, Ev.regRes m x ∈ (foundEv n t a ++ .discRes n (some a) :: σ.log) ↔ Ev.regRes m x ∈ σ.log := by
      simp [mem_foundEv]
    constructor <;> simp only [hl1, hl2, mem_rm h2, State.put, AMap.find_set] <;> grind [nodup_rm]
  case foundDown n a t d hq hfd hdk ht hs =>
    have hl1 : ∀ m x, Ev.discRes m x ∈ (foundEv n t a ++ .discRes n (some a) :: σ.log) ↔
      (m = n ∧ x = some a) ∨ Ev.discRes m x ∈ σ.log := by simp [mem_foundEv]
    have hl2 : ∀ m x, Ev.regRes m x ∈ (foundEv n t a ++ .discRes n (some a) :: σ.log) ↔ Ev.regRes m x ∈ σ.log := by
      simp [mem_foundEv]
    constructor <;> simp only [hl1, hl2, mem_rm h2, State.put] <;> grind [nodup_rm]
  case linkTask a n r t names hq ht hn hall hst hr hcb =>
    have hf := erase_le n t σ
    have hl1 : ∀ m x, Ev.discRes m x ∈ (callEvs σ true names ++ .linkRes a true :: σ.log) ↔ Ev.discRes m x ∈ σ.log := by simp [mem_callEvs]
    have hl2 : ∀ m x, Ev.regRes m x ∈ (callEvs σ true names ++ .linkRes a true :: σ.log) ↔ Ev.regRes m x ∈ σ.log := by simp [mem_callEvs]
    obtain ⟨op, cb⟩ := r
    constructor <;> simp only [hl1, hl2, AMap.find_set] <;> grind
  case linkTaskDown a n r t names hq ht hn hall hst hr hcb =>
    have hf := erase_le n t σ
    have hl1 : ∀ m x, Ev.discRes m x ∈ (callEvs σ true names ++ .linkRes a true :: σ.log) ↔ Ev.discRes m x ∈ σ.log := by simp [mem_callEvs]
    have hl2 : ∀ m x, Ev.regRes m x ∈ (callEvs σ true names ++ .linkRes a true :: σ.log) ↔ Ev.regRes m x ∈ σ.log := by simp [mem_callEvs]
    constructor <;> simp only [hl1, hl2] <;> grind
  case linkTaskErr a n r t names hq ht hn hall hst hr hcb =>
    have hf := erase_le n t σ
    have hl1 : ∀ m x, Ev.discRes m x ∈ ((if σ.st = .initializing then [Ev.answer false] else []) ++ (callEvs σ false names ++ .linkRes a false :: σ.log)) ↔
        Ev.discRes m x ∈ σ.log := by intro m x; split <;> simp [mem_callEvs]
    have hl2 : ∀ m x, Ev.regRes m x ∈ ((if σ.st = .initializing then [Ev.answer false] else []) ++ (callEvs σ false names ++ .linkRes a false :: σ.log)) ↔
        Ev.regRes m x ∈ σ.log := by intro m x; split <;> simp [mem_callEvs]
    constructor <;> simp only [hl1, hl2, AMap.find_erase] <;> grind
  case setOp a r hs hr hq =>
    obtain ⟨op, cb⟩ := r
    constructor <;> simp only [AMap.find_set] <;> grind
  case dropReg n hs =>
    have : σ.qReg = [] → rm σ.qReg n = [] := fun h => by rw [h]; rfl
    constructor <;> simp only [mem_rm h3] <;> grind [nodup_rm]
  case dropDisc n hs =>
    have : σ.qDisc = [] → rm σ.qDisc n = [] := fun h => by rw [h]; rfl
    constructor <;> simp only [mem_rm h2] <;> grind [nodup_rm]
  all_goals (have hf := erase_le; constructor <;> (try simp only [initFinish, mem_rm h2, mem_rm h3]) <;>
    grind [AMap.find_set, AMap.find_erase, AMap.find_nil, nodup_rm])

end Verif.RegPlugin
