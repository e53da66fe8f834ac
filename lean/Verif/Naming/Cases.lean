import Verif.Naming.Props

/-! # Cases for C77: addresses as the usual libraries write them -/

namespace Verif.Naming

open Verif.Texts (Text)

def digit (n : Nat) : Char :=
  match n with
  | 0 => '0' | 1 => '1' | 2 => '2' | 3 => '3' | 4 => '4' | 5 => '5' | 6 => '6' | 7 => '7' | 8 => '8' | 9 => '9' | 10 => 'a' | 11 => 'b'
  | 12 => 'c' | 13 => 'd' | 14 => 'e' | _ => 'f'

def digits (n : Nat) : Text := if n < 16 then [digit n] else digits (n / 16) ++ [digit (n % 16)]

/-- `0x7f..` -/
def hex (n : Nat) : Text := '0' :: 'x' :: digits n

theorem digit_inj : ∀ a < 16, ∀ b < 16, digit a = digit b → a = b := by decide

theorem digit_plain (n : Nat) : digit n ≠ ' ' ∧ digit n ≠ '<' := by
  unfold digit; split <;> decide

theorem digits_plain (n : Nat) : ' ' ∉ digits n ∧ '<' ∉ digits n := by
  induction n using Nat.strongRecOn with
  | _ n ih =>
    have hd := digit_plain
    unfold digits
    split
    · have := hd n; simp only [List.mem_singleton]; exact ⟨this.1.symm, this.2.symm⟩
    · rename_i hn
      have := ih (n / 16) (by omega)
      have h2 := hd (n % 16)
      simp only [List.mem_append, List.mem_singleton, not_or]
      exact ⟨⟨this.1, h2.1.symm⟩, this.2, h2.2.symm⟩

theorem digits_ne (n : Nat) : digits n ≠ [] := by
  unfold digits; split <;> simp

theorem digits_inj (a b : Nat) (h : digits a = digits b) : a = b := by
  induction a using Nat.strongRecOn generalizing b with
  | _ a ih =>
    have ea := digits.eq_def a
    have eb := digits.eq_def b
    by_cases ha : a < 16 <;> by_cases hb : b < 16
    · rw [if_pos ha] at ea; rw [if_pos hb] at eb
      rw [ea, eb] at h
      exact digit_inj a ha b hb (by simpa using h)
    · rw [if_pos ha] at ea; rw [if_neg hb] at eb
      rw [ea, eb] at h
      have := congrArg List.length h
      have h2 := List.length_pos_iff.2 (digits_ne (b / 16))
      simp only [List.length_cons, List.length_nil, List.length_append] at this
      omega
    · rw [if_neg ha] at ea; rw [if_pos hb] at eb
      rw [ea, eb] at h
      have := congrArg List.length h
      have h2 := List.length_pos_iff.2 (digits_ne (a / 16))
      simp only [List.length_cons, List.length_nil, List.length_append] at this
      omega
    · rw [if_neg ha] at ea; rw [if_neg hb] at eb
      rw [ea, eb] at h
      have hh := List.append_inj' h rfl
      have h1 := ih (a / 16) (by omega) (b / 16) hh.1
      have h2 := digit_inj (a % 16) (by omega) (b % 16) (by omega) (by simpa using hh.2)
      omega

/-- the hypothesis of `C77_tell_actors` and `C77_who` holds of hexadecimal numbers -/
theorem hex_plain : Plain hex := by
  refine ⟨fun a b h => digits_inj a b (by simpa [hex] using h), fun a => ?_, fun a => ?_⟩
  · have := (digits_plain a).1; simp [hex, this]
  · have := (digits_plain a).2; simp [hex, this]

def caseLabels : List Label :=
  [.activate 0 4096 true [], .activate 1 4112 false [(c!"net", true)], .activate 2 4128 false [(c!"x", true), (c!"db", false)],
   .activate 3 4144 false [([], false)]]

/-- a supervisor, actors with one name, with another one, with none -/
def caseActors : List Actor :=
  [⟨3, 4144, c!"actor 0x1030", false, [([], false)]⟩, ⟨2, 4128, c!"db", false, [(c!"x", true), (c!"db", false)]⟩,
   ⟨1, 4112, c!"net 0x1010", false, [(c!"net", true)]⟩, ⟨0, 4096, c!"supervisor 0x1000", true, []⟩]

theorem digits_small {n : Nat} (h : n < 16) : digits n = [digit n] := by rw [digits, if_pos h]

theorem digits_big {n : Nat} (h : ¬ n < 16) : digits n = digits (n / 16) ++ [digit (n % 16)] := by rw [digits, if_neg h]

example : ∃ σ, run hex ⟨[], []⟩ caseLabels = some σ ∧ σ.actors = caseActors := by
  have h1 : hex 4096 = c!"0x1000" := by simp [hex, digits_big, digits_small, digit]
  have h2 : hex 4112 = c!"0x1010" := by simp [hex, digits_big, digits_small, digit]
  have h3 : hex 4128 = c!"0x1020" := by simp [hex, digits_big, digits_small, digit]
  have h4 : hex 4144 = c!"0x1030" := by simp [hex, digits_big, digits_small, digit]
  refine ⟨_, rfl, ?_⟩
  simp [activate, setIdentity, caseActors, h1, h2, h4]

/-- two named actors that live at the same time, and an error of one of them because of the other -/
example : ∃ σ a b, Reachable hex σ ∧ a ∈ σ.actors ∧ b ∈ σ.actors ∧ a ≠ b ∧ named a = some c!"supervisor" ∧ named b = some c!"net" :=
  ⟨_, ⟨0, 4096, activate hex 4096 true [], true, []⟩, ⟨1, 4112, activate hex 4112 false [(c!"net", true)], false, [(c!"net", true)]⟩,
    ⟨caseLabels, rfl⟩, by simp, by simp, by simp, by decide, by decide⟩

example (others : Nat → Int → Text) :
    message others false (makeError c!"supervisor 0x1000" ShutCode.childInitFailed.code
      (makeError c!"net 0x1010" ErrCode.requestTimeout.code [] none) none) =
      c!"supervisor 0x1000 supervisor shutdown due to child init failure <- net 0x1010 request timeout" := rfl

example (others : Nat → Int → Text) :
    message others true (makeError c!"net 0x1010" ErrCode.discoveryFailed.code [] (some c!"r::discovery_request")) =
      c!"net 0x1010 discovery has been failed [r::discovery_request]" := rfl

example : Err.ordinary ⟨c!"net 0x1010", ErrCode.requestTimeout.code, none⟩ := ⟨.inl rfl, by decide⟩

example : ¬ Code.known ⟨.error, 99⟩ := by
  rw [known_err]; rintro ⟨e, he⟩; cases e <;> simp [ErrCode.value] at he

end Verif.Naming
