import Verif.RegPlugin.Model
/-!
# The steps of the registry plugin, taken apart
-/

namespace Verif.RegPlugin
open Verif

variable {c : Conf} {σ σ' : State}

theorem links_spec {l : List Nat} : ∀ {σ σ' : State}, links l σ = .ok σ' → ∃ srv' b,
    σ' = { σ with rInitL := b, qLink := σ.qLink ++ l, srv := srv', log := (l.map (fun a => Ev.linkReq a .user)).reverse ++ σ.log } ∧
    (l = [] → b = σ.rInitL) ∧ (l ≠ [] → b = true) ∧
    (∀ a, srv'.find a = if a ∈ l then some ⟨false, .user⟩ else σ.srv.find a) ∧ l.Nodup ∧ ∀ a, a ∈ l → σ.srv.find a = none := by
  induction l with
  | nil =>
    intro σ σ' e
    simp only [links] at e; injection e with e; subst e
    exact ⟨σ.srv, σ.rInitL, by simp, by simp, by simp, by simp, by simp, by simp⟩
  | cons a l ih =>
    intro σ σ' e
    simp only [links] at e
    split at e
    · cases e
    · rename_i σ1 h1
      unfold link at h1
      split at h1
      · cases h1
      · rename_i hn
        injection h1 with h1; subst h1
        obtain ⟨srv', b, e1, e2, e3, e4, e5, e6⟩ := ih e
        refine ⟨srv', b, ?_, by simp, fun _ => ?_, ?_, ?_, ?_⟩
        · rw [e1]; simp
        · cases l with
          | nil => exact e2 rfl
          | cons _ _ => exact e3 (by simp)
        · intro x; rw [e4]; simp only [AMap.find_set, List.mem_cons]; grind
        · refine List.nodup_cons.2 ⟨fun hm => ?_, e5⟩
          have := e6 a hm
          simp at this
        · intro x hx
          rcases List.mem_cons.1 hx with hx | hx
          · subst hx; grind
          · have := e6 x hx
            simp only [AMap.find_set] at this
            grind

/-- the registry is linked when the first name is asked for -/
def linkedTo (c : Conf) (ws : List Want) (σ : State) : State :=
  if ws = [] ∨ σ.linking = true then σ
  else { σ with linking := true, rInitL := true, qLink := σ.qLink ++ [c.reg], srv := σ.srv.set c.reg ⟨false, .registry⟩,
                log := .linkReq c.reg .registry :: σ.log }

theorem need_spec (e : needRegistry c σ = .ok σ') :
    σ' = linkedTo c [.reg 0 0] σ ∧ σ.linked = false ∧ (σ.linking = false → σ.srv.find c.reg = none) := by
  unfold needRegistry at e
  split at e
  · cases e
  · rename_i h1
    have h1' : σ.linked = false := by simpa using h1
    split at e
    · rename_i h2
      injection e with e; subst e
      simp [linkedTo, h2, h1']
    · rename_i h2
      unfold linkRegistry link at e
      split at e
      · cases e
      · rename_i h3
        injection e with e; subst e
        refine ⟨?_, h1', fun _ => ?_⟩
        · simp [linkedTo, h2]
        · simpa using h3

theorem wants_spec {ws : List Want} : ∀ {σ σ' : State}, wants c ws σ = .ok σ' → ∃ regs' disc',
    σ' = { linkedTo c ws σ with regs := regs', disc := disc' } ∧
    (ws ≠ [] → σ.linked = false ∧ (σ.linking = false → σ.srv.find c.reg = none)) ∧
    (∀ n t, disc'.find n = some t ↔ σ.disc.find n = some t ∨ ∃ v d cb, .disc n v d cb ∈ ws ∧ t = ⟨v, d, cb, .passive⟩) ∧
    (∀ n r, regs'.find n = some r ↔ σ.regs.find n = some r ∨ ∃ a, .reg n a ∈ ws ∧ r = ⟨a, .registering⟩) ∧
    (σ.disc.keys.Nodup → disc'.keys.Nodup) ∧ (σ.regs.keys.Nodup → regs'.keys.Nodup) := by
  induction ws with
  | nil =>
    intro σ σ' e
    simp only [wants] at e; injection e with e; subst e
    exact ⟨σ.regs, σ.disc, by simp [linkedTo], by simp, by simp, by simp, id, id⟩
  | cons w ws ih =>
    intro σ σ' e
    simp only [wants] at e
    split at e
    · cases e
    · rename_i σ1 h1
      obtain ⟨regs', disc', e1, e2, e3, e4, e5, e6⟩ := ih e
      have hl : ∀ (r : AMap Nat Reg) (d : AMap Nat Task),
          linkedTo c ws { linkedTo c [.reg 0 0] σ with regs := r, disc := d } = { linkedTo c (w :: ws) σ with regs := r, disc := d } := by
        intro r d
        cases hlk : σ.linking <;> cases ws <;> simp [linkedTo, hlk]
      unfold want at h1
      split at h1
      · rename_i n a
        split at h1
        · cases h1
        · rename_i hn
          split at h1
          · cases h1
          · rename_i σ2 h2
            injection h1 with h1
            obtain ⟨f1, f2, f3⟩ := need_spec h2
            have hr : (linkedTo c [.reg 0 0] σ).regs = σ.regs ∧ (linkedTo c [.reg 0 0] σ).disc = σ.disc := by
              unfold linkedTo; split <;> exact ⟨rfl, rfl⟩
            subst f1; subst h1
            refine ⟨regs', disc', ?_, fun _ => ⟨f2, f3⟩, ?_, ?_, ?_, ?_⟩
            · rw [e1]
              have := hl ((linkedTo c [.reg 0 0] σ).regs.set n ⟨a, .registering⟩) (linkedTo c [.reg 0 0] σ).disc
              simp only at this ⊢
              rw [this]
            · intro m t; rw [e3]; simp only [hr.2, List.mem_cons]; grind
            · intro m t; rw [e4]; simp only [hr.1, AMap.find_set, List.mem_cons]; grind
            · intro h; exact e5 (by simpa only [hr.2] using h)
            · intro h; exact e6 (by simp only [hr.1]; exact AMap.keys_set_nodup _ _ _ h)
      · rename_i n v d cb
        split at h1
        · cases h1
        · rename_i hn
          split at h1
          · cases h1
          · rename_i σ2 h2
            injection h1 with h1
            obtain ⟨f1, f2, f3⟩ := need_spec h2
            have hr : (linkedTo c [.reg 0 0] σ).regs = σ.regs ∧ (linkedTo c [.reg 0 0] σ).disc = σ.disc := by
              unfold linkedTo; split <;> exact ⟨rfl, rfl⟩
            subst f1; subst h1
            refine ⟨regs', disc', ?_, fun _ => ⟨f2, f3⟩, ?_, ?_, ?_, ?_⟩
            · rw [e1]
              have := hl (linkedTo c [.reg 0 0] σ).regs ((linkedTo c [.reg 0 0] σ).disc.set n ⟨v, d, cb, .passive⟩)
              simp only at this ⊢
              rw [this]
            · intro m t; rw [e3]; simp only [hr.2, AMap.find_set, List.mem_cons]; grind
            · intro m t; rw [e4]; simp only [hr.1, List.mem_cons]; grind
            · intro h; exact e5 (by simp only [hr.2]; exact AMap.keys_set_nodup _ _ _ h)
            · intro h; exact e6 (by simpa only [hr.1] using h)

/-- the callbacks of the names in a list -/
def callEvs (σ : State) (ok : Bool) (names : List Nat) : List Ev :=
  (names.filterMap (fun n => match σ.disc.find n with
    | some t => if t.cb then some (Ev.called n .linking ok (σ.vars t.v)) else none
    | none => none)).reverse

theorem callAll_spec {ok : Bool} {names : List Nat} : ∀ {σ σ' : State}, callAll ok names σ = .ok σ' →
    σ' = { σ with log := callEvs σ ok names ++ σ.log } ∧ ∀ n, n ∈ names → ∃ t, σ.disc.find n = some t := by
  induction names with
  | nil => intro σ σ' e; simp only [callAll] at e; injection e with e; subst e; simp [callEvs]
  | cons n ns ih =>
    intro σ σ' e
    simp only [callAll] at e
    split at e
    · cases e
    · rename_i t ht
      obtain ⟨e1, e2⟩ := ih e
      have hd : (if t.cb then σ.ev (.called n .linking ok (σ.vars t.v)) else σ).disc = σ.disc := by split <;> rfl
      have hv : (if t.cb then σ.ev (.called n .linking ok (σ.vars t.v)) else σ).vars = σ.vars := by split <;> rfl
      rw [hd] at e2
      refine ⟨?_, ?_⟩
      · rw [e1]
        have : callEvs (if t.cb then σ.ev (.called n .linking ok (σ.vars t.v)) else σ) ok ns = callEvs σ ok ns := by
          unfold callEvs; rw [hd, hv]
        rw [this]
        cases hcb : t.cb <;> simp [callEvs, ht, hcb, State.ev, List.filterMap_cons]
      · intro m hm
        rcases List.mem_cons.1 hm with hm | hm
        · exact ⟨t, by rw [hm]; exact ht⟩
        · exact e2 m hm

end Verif.RegPlugin
