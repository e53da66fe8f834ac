import Verif.Texts.Spec
/-!
# C74: the texts of messages tell what they are about
-/

namespace Verif.Texts

/-- all types of messages -/
def kinds : List Kind :=
  [.unsubscription, .unsubscriptionExternal, .subscription, .externalSubscription, .commitUnsubscription, .handlerCall, .initRequest, .initResponse,
   .startTrigger, .shutdownTrigger, .shutdownRequest, .shutdownResponse, .createActor, .spawnActor, .registrationRequest, .registrationResponse,
   .deregistrationNotify, .deregistrationService, .discoveryRequest, .discoveryResponse, .discoveryPromise, .discoveryFuture, .discoveryCancel,
   .linkRequest, .linkResponse, .unlinkNotify, .unlinkRequest, .unlinkResponse, .user]

theorem name_found (a : Kind) : kinds.find? (fun k => name k == name a) = some a := by
  cases a <;> rfl

theorem name_injective (a b : Kind) (h : name a = name b) : a = b := by
  have ha := name_found a
  rw [h, name_found b] at ha
  exact (Option.some.inj ha).symm

/-- **C74** The first word of the text of a message is the name of its type, whatever it contains. -/
theorem C74_first_word (m : Msg) : firstWord (stringify plain m) = name m.kind := by
  cases m <;> rfl

/-- **C74** Messages of different types never read the same. -/
theorem C74_kinds_differ (m m' : Msg) (h : stringify plain m = stringify plain m') : m.kind = m'.kind :=
  name_injective _ _ (by rw [← C74_first_word, ← C74_first_word, h])

/-- **C74** A derived class does not change the texts of the messages of the library in any other way than inside of handler calls: their first
words stay. -/
theorem C74_own_keeps (own : Text → Text → Option Text) (m : Msg) (h : m.kind ≠ .user) : firstWord (stringify own m) = name m.kind := by
  cases m <;> first | rfl | exact absurd rfl h

/-- **C74** Every text ends with the address of the message. -/
theorem C74_destination (own : Text → Text → Option Text) (m : Msg) : ∃ pre, stringify own m = pre ++ c!" => " ++ m.dest := by
  cases m <;> exact ⟨_, rfl⟩

theorem Within.refl (a : Text) : Within a a := ⟨[], [], by simp⟩

theorem Within.trans {a b c : Text} (h : Within a b) (h' : Within b c) : Within a c := by
  obtain ⟨p, q, e⟩ := h
  obtain ⟨p', q', e'⟩ := h'
  exact ⟨p' ++ p, q ++ q', by rw [e', e]; simp⟩

/-- **C74** The text of a handler call contains the text of the message that it is about, to any depth, and so it does for what a derived class says
about messages of the user. -/
theorem C74_nested (own : Text → Text → Option Text) (a m : Msg) (h : Inside a m) : Within (stringify own a) (stringify own m) := by
  induction h with
  | self => exact .refl _
  | call m d actor _ ih => exact ih.trans ⟨c!"r::handler_call {", c!"} @ " ++ actor ++ c!" => " ++ d, by simp [stringify]⟩

/-- **C74** What a derived class says about a message of the user is shown, alone and inside of handler calls. -/
theorem C74_own_shown (own : Text → Text → Option Text) (d type content t : Text) (ho : own type content = some t) (m : Msg)
    (h : Inside (.user d type content) m) : Within (t ++ c!" => " ++ d) (stringify own m) := by
  have := C74_nested own _ m h
  simpa [stringify, ho] using this

theorem fail_injective (e e' : Option Text) (h : fail e = fail e') : e = e' := by
  cases e <;> cases e' <;> simp [fail] at h ⊢
  exact h

theorem because_injective (e e' : Option Text) (h : because e = because e') : e = e' := by
  cases e <;> cases e' <;> simp [because] at h ⊢
  exact h

theorem found_injective (e e' : Option Text) (r : Text) (h : found e r = found e' r) : e = e' := by
  cases e <;> cases e' <;> simp [found] at h ⊢
  exact h

/-- **C74** Answers that differ in nothing but the error, and shutdowns that differ in nothing but the reason, never read the same: a failure cannot
be taken for a success or for another failure. -/
theorem C74_errors_differ (own : Text → Text → Option Text) (m a b : Msg) (e e' : Option Text) (ha : withError e m = some a) (hb : withError e' m = some b)
    (h : stringify own a = stringify own b) : e = e' := by
  cases m <;> simp only [withError] at ha hb
  all_goals first | (cases ha; done) | skip
  all_goals
    injection ha with ha
    injection hb with hb
    subst ha; subst hb
    simp only [stringify, List.append_assoc, List.append_cancel_left_eq] at h
    simp only [← List.append_assoc, List.append_cancel_right_eq] at h
    first | exact fail_injective _ _ h | exact because_injective _ _ h | exact found_injective _ _ _ h

/-- **C74** The error itself can be read in the text. -/
theorem C74_errors_shown (own : Text → Text → Option Text) (m a : Msg) (e : Text) (ha : withError (some e) m = some a) : Within e (stringify own a) := by
  cases m <;> simp only [withError] at ha
  all_goals first | (cases ha; done) | skip
  all_goals
    injection ha with ha
    subst ha
    simp only [stringify, fail, because, found, ← List.append_assoc]
    exact ⟨_, _, by rw [List.append_assoc (_ ++ e)]⟩

theorem Within.left {a b : Text} (c : Text) (h : Within a b) : Within a (b ++ c) := h.trans ⟨[], c, by simp⟩
theorem Within.right {a b : Text} (c : Text) (h : Within a b) : Within a (c ++ b) := h.trans ⟨c, [], by simp⟩

syntax "within" : tactic
macro_rules | `(tactic| within) => `(tactic| first | exact Within.refl _ | (refine Within.right _ ?_; exact Within.refl _) | (refine Within.left _ ?_; within))

/-- **C74** The addresses, names, types and numbers of requests that a message carries can be read in its text. -/
theorem C74_parts_shown (m : Msg) : ∀ t ∈ parts m, Within t (stringify plain m) := by
  intro t ht
  cases m with
  | discoveryResponse d n ee r =>
    cases ee <;> simp only [parts, List.mem_cons, List.not_mem_nil, or_false] at ht <;> simp only [stringify, found, ← List.append_assoc] <;>
      rcases ht with rfl | rfl | rfl | rfl <;> within
  | discoveryFuture d n ee r =>
    cases ee <;> simp only [parts, List.mem_cons, List.not_mem_nil, or_false] at ht <;> simp only [stringify, found, ← List.append_assoc] <;>
      rcases ht with rfl | rfl | rfl | rfl <;> within
  | _ =>
    simp only [parts, List.mem_cons, List.not_mem_nil, or_false] at ht
    simp only [stringify, Point.text, plain, ← List.append_assoc]
    rcases ht with rfl | rfl | rfl | rfl <;> within

/-- **C74** Lines tell what has become of the message and what type it has: a delivery and a discarding, or messages of different types, never give
the same line. -/
theorem C74_lines_differ (f f' : Fate) (m m' : Msg) (h : line plain f m = line plain f' m') : f = f' ∧ m.kind = m'.kind := by
  have hf : f = f' := by
    have : (line plain f m).head? = (line plain f' m').head? := by rw [h]
    cases f <;> cases f' <;> first | rfl | exact absurd this (by simp [line, Fate.text])
  subst hf
  refine ⟨rfl, C74_kinds_differ m m' ?_⟩
  have key : ∀ m : Msg, ((line plain f m).dropWhile (fun c => c != '}')).drop 2 = stringify plain m ++ c!"\n" := by
    intro m
    have hn : ∀ k : Kind, ∀ c ∈ num (level k).toNat, (c != '}') = true := by
      intro k
      cases k <;> decide
    have h1 : ∀ r : Text, (line plain f m) = (f.text ++ ['{'] ++ num (level m.kind).toNat) ++ ('}' :: ' ' :: (stringify plain m ++ ['\n'])) := by
      intro r; simp [line]
    rw [h1 [], List.dropWhile_append_of_pos]
    · rfl
    · intro c hc
      rcases List.mem_append.mp hc with hc | hc
      · have h2 : ∀ c ∈ f.text ++ ['{'], (c != '}') = true := by cases f <;> decide
        exact h2 c hc
      · exact hn _ c hc
  have := key m
  rw [h, key m'] at this
  exact (List.append_cancel_right this).symm

/-- **C74** A line begins with the mark of what has become of the message, and ends with the whole text, as the stringifier in use gives it. -/
theorem C74_line (own : Text → Text → Option Text) (m : Msg) :
    (∃ between, line own .delivered m = c!">> " ++ between ++ stringify own m ++ c!"\n") ∧
    (∃ between, line own .discarded m = c!"<DISCARDED> " ++ between ++ stringify own m ++ c!"\n") :=
  ⟨⟨c!"{" ++ num (level m.kind).toNat ++ c!"} ", by simp [line, Fate.text]⟩, ⟨c!"{" ++ num (level m.kind).toNat ++ c!"} ", by simp [line, Fate.text]⟩⟩

/-- **C74** Without the variable nothing is printed. With it, everything is printed from level 20 on, messages of the user from level 0 on, and
nothing is hidden by a higher level: what is printed is the whole line or nothing. -/
theorem C74_levels (own : Text → Text → Option Text) (f : Fate) (m : Msg) :
    dump own none f m = [] ∧
    (∀ v, 20 ≤ atoi v → dump own (some v) f m = line own f m) ∧
    (∀ v, m.kind = .user → 0 ≤ atoi v → dump own (some v) f m = line own f m) ∧
    (∀ v v', atoi v ≤ atoi v' → dump own (some v) f m ≠ [] → dump own (some v') f m = line own f m) ∧
    (∀ v, dump own (some v) f m = [] ∨ dump own (some v) f m = line own f m) ∧
    (∀ v, atoi v < 0 → dump own (some v) f m = []) := by
  have hl : 0 ≤ level m.kind ∧ level m.kind ≤ 20 := by
    cases m.kind <;> exact ⟨by decide, by decide⟩
  refine ⟨rfl, fun v hv => ?_, fun v hk hv => ?_, fun v v' hv h => ?_, fun v => ?_, fun v hv => ?_⟩
  · simp only [dump]; rw [if_pos (by omega)]
  · simp only [dump, hk, level]; rw [if_pos hv]
  · simp only [dump] at h ⊢
    split at h
    · rw [if_pos (by omega)]
    · exact absurd rfl h
  · simp only [dump]; split <;> simp
  · simp only [dump]; rw [if_neg (by omega)]

theorem digits_eq : ∀ (l : Text) (n : Nat), (∀ c ∈ l, c.isDigit = true) → digits l n = Nat.ofDigitChars 10 l n
  | [], n, _ => by simp [digits]
  | c :: cs, n, h => by
    rw [digits, if_pos (h c (by simp)), digits_eq cs _ (fun c' h' => h c' (by simp [h'])), Nat.ofDigitChars_cons]

theorem digits_num (n : Nat) : digits (num n) 0 = n := by
  rw [digits_eq (num n) 0 (fun c hc => Nat.isDigit_of_mem_toDigits (by decide) (by decide) hc)]
  exact Nat.ofDigitChars_toDigits (by decide) (by decide)

theorem atoi_num (n : Nat) : atoi (num n) = n := by
  have hd := digits_num n
  have hall : ∀ c ∈ num n, c.isDigit = true := fun c hc => Nat.isDigit_of_mem_toDigits (by decide) (by decide) hc
  cases h : num n with
  | nil => exact absurd h Nat.toDigits_ne_nil
  | cons c cs =>
    have hc : c.isDigit = true := hall c (by rw [h]; simp)
    have h1 : ¬ (c = ' ' ∨ c = '\t' ∨ c = '\n') := by
      rintro (e | e | e) <;> subst e <;> exact absurd hc (by decide)
    have h2 : c ≠ '-' := by rintro rfl; exact absurd hc (by decide)
    have h3 : c ≠ '+' := by rintro rfl; exact absurd hc (by decide)
    rw [h] at hd
    rw [atoi, if_neg h1, if_neg h2, if_neg h3, hd]

/-- **C74** With a number as the value of the variable, exactly the messages up to this level are printed; with a negative one, none. -/
theorem C74_value (own : Text → Text → Option Text) (f : Fate) (m : Msg) (n : Nat) :
    dump own (some (num n)) f m = (if level m.kind ≤ n then line own f m else []) ∧ dump own (some ('-' :: num (n + 1))) f m = [] := by
  constructor
  · simp only [dump, atoi_num]
  · have hl : 0 ≤ level m.kind := by cases m.kind <;> decide
    have : atoi ('-' :: num (n + 1)) = - ((n + 1 : Nat) : Int) := by
      rw [atoi, if_neg (by decide), if_pos rfl, digits_num]
    simp only [dump, this]
    rw [if_neg (by omega)]

/-- **C74** Requests and their answers are not always shown from the same level on: for links it is 5 for the request and 3 for the answer. -/
theorem C74_link_level_counterexample (own : Text → Text → Option Text) (f : Fate) (d o : Text) (ee : Option Text) :
    dump own (some c!"3") f (.linkResponse d o ee) ≠ [] ∧ dump own (some c!"3") f (.linkRequest d o) = [] := by
  have h3 : atoi c!"3" = 3 := by decide
  constructor
  · simp only [dump, h3, Msg.kind, level]
    rw [if_pos (by decide)]
    cases f <;> simp [line, Fate.text]
  · simp only [dump, h3, Msg.kind, level]
    rw [if_neg (by decide)]

/-- a failed answer inside of two handler calls -/
def exMsg : Msg := .handlerCall c!"B" (.handlerCall c!"C" (.linkResponse c!"A" c!"S" (some c!"already linked")) c!"x") c!"y"

example : stringify plain exMsg =
    c!"r::handler_call {r::handler_call {r::link_response @ S, fail:already linked => A} @ x => C} @ y => B" := by decide
example : Inside (.linkResponse c!"A" c!"S" (some c!"already linked")) exMsg := .call _ _ _ _ (.call _ _ _ _ (.self _))
example : withError (some c!"e") (.discoveryResponse c!"A" c!"n" none c!"r") = some (.discoveryResponse c!"A" c!"n" (some c!"e") c!"r") := rfl
example : dump plain (some c!" 12x") .discarded (.initRequest c!"A" 17) = c!"<DISCARDED> {11} r::init_request #17 > A => A\n" := by decide
example : atoi c!"-4" = -4 ∧ atoi c!"all" = 0 ∧ atoi c!"99" = 99 := by decide

end Verif.Texts
