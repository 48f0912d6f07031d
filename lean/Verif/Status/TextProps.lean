import Verif.Status.Props
/-! # C26: the printed form of a status, and messages given as formats -/
namespace Nebula

/-! ## Specification -/

/-- The message with every percent sign doubled. -/
def doubled (m : Bytes) : Bytes := m.flatMap fun b => if b = 37 then [37, 37] else [b]

/-- A text before a colon and a space: letters only. -/
def Heading (n t : Bytes) : Prop := n ≠ [] ∧ (∀ b ∈ n, (65 ≤ b ∧ b ≤ 90) ∨ (97 ≤ b ∧ b ≤ 122)) ∧ t = n ++ ascii ": "

/-- The codes whose printed form has no heading. -/
def Bare (c : StatusCode) : Prop := c = .ok ∨ c = .error ∨ c = .listenerNotFound

/-- The word for a code: the name of the enumerator (Status.h:157-202) without its k. -/
def codeWord : StatusCode → String
  | .ok => "OK"
  | .error => ""
  | .inserted => "Inserted"
  | .noSuchFile => "NoSuchFile"
  | .notSupported => "NotSupported"
  | .syntaxError => "SyntaxError"
  | .statementEmpty => "StatementEmpty"
  | .semanticError => "SemanticError"
  | .keyNotFound => "KeyNotFound"
  | .partialSuccess => "PartialSuccess"
  | .spaceNotFound => "SpaceNotFound"
  | .hostNotFound => "HostNotFound"
  | .tagNotFound => "TagNotFound"
  | .edgeNotFound => "EdgeNotFound"
  | .userNotFound => "UserNotFound"
  | .leaderChanged => "LeaderChanged"
  | .balanced => "Balanced"
  | .indexNotFound => "IndexNotFound"
  | .partNotFound => "PartNotFound"
  | .groupNotFound => "GroupNotFound"
  | .zoneNotFound => "ZoneNotFound"
  | .listenerNotFound => "ListenerNotFound"
  | .permissionError => "PermissionError"

/-! ## Lemmas -/

/-- All codes. -/
def statusCodes : List StatusCode :=
  [.ok, .inserted, .error, .noSuchFile, .notSupported, .syntaxError, .statementEmpty, .semanticError, .keyNotFound, .partialSuccess, .spaceNotFound, .hostNotFound, .tagNotFound, .edgeNotFound,
   .userNotFound, .leaderChanged, .balanced, .indexNotFound, .partNotFound, .groupNotFound, .zoneNotFound, .listenerNotFound, .permissionError]

theorem mem_statusCodes (c : StatusCode) : c ∈ statusCodes := by cases c <;> decide

theorem text_inj {c c' : StatusCode} (h : c.text = c'.text) : c = c' :=
  (show ∀ c ∈ statusCodes, ∀ c' ∈ statusCodes, c.text = c'.text → c = c' by decide +kernel) c (mem_statusCodes c) c' (mem_statusCodes c') h

theorem text_heading (c : StatusCode) : Bare c ∨ (c.text.dropLast.dropLast ≠ [] ∧ (∀ b ∈ c.text.dropLast.dropLast, (65 ≤ b ∧ b ≤ 90) ∨ (97 ≤ b ∧ b ≤ 122)) ∧
    c.text = c.text.dropLast.dropLast ++ ascii ": ") :=
  (show ∀ c ∈ statusCodes, (c = .ok ∨ c = .error ∨ c = .listenerNotFound) ∨ (c.text.dropLast.dropLast ≠ [] ∧
    (∀ b ∈ c.text.dropLast.dropLast, (65 ≤ b ∧ b ≤ 90) ∨ (97 ≤ b ∧ b ≤ 122)) ∧ c.text = c.text.dropLast.dropLast ++ ascii ": ") by decide +kernel) c (mem_statusCodes c)

theorem make_toString {c : StatusCode} (hc : c ≠ .ok) {m : Bytes} (hm : m.length < 65536) : (Status.make c m).toString = some (c.text ++ m) := by
  have e : m.length % 65536 = m.length := Nat.mod_eq_of_lt hm
  have hcode : (Status.make c m).code = c := rfl
  unfold Status.toString
  rw [hcode, if_neg hc]
  simp only [Status.make, e, List.take_length, Nat.le_refl, if_true]

theorem heading_split {n n' m m' : Bytes} (hn : (58 : UInt8) ∉ n) (hn' : (58 : UInt8) ∉ n') (h : n ++ 58 :: m = n' ++ 58 :: m') : n = n' ∧ m = m' := by
  induction n generalizing n' with
  | nil => cases n' with
    | nil => simpa using h
    | cons b n' => simp only [List.nil_append, List.cons_append, List.cons.injEq] at h; exact absurd (by rw [h.1]; exact List.mem_cons_self) hn'
  | cons a n ih => cases n' with
    | nil => simp only [List.nil_append, List.cons_append, List.cons.injEq] at h; exact absurd (by rw [h.1]; exact List.mem_cons_self) hn
    | cons b n' =>
      simp only [List.cons_append, List.cons.injEq] at h
      obtain ⟨h1, h2⟩ := ih (fun hh => hn (List.mem_cons_of_mem _ hh)) (fun hh => hn' (List.mem_cons_of_mem _ hh)) h.2
      exact ⟨by rw [h.1, h1], h2⟩

theorem formatNoArgs_doubled : ∀ m : Bytes, formatNoArgs (doubled m) = some m
  | [] => rfl
  | b :: m => by
    have ih := formatNoArgs_doubled m
    by_cases hb : b = 37
    · subst hb
      show formatNoArgs (37 :: 37 :: doubled m) = _
      rw [formatNoArgs, ih]; rfl
    · have e : doubled (b :: m) = b :: doubled m := by simp [doubled, hb]
      rw [e, formatNoArgs, ih]
      · rfl
      · intro r' e; exact absurd e hb
      · exact hb

theorem text_word (c : StatusCode) : Bare c ∨ c.text = ascii (codeWord c) ++ ascii ": " :=
  (show ∀ c ∈ statusCodes, (c = .ok ∨ c = .error ∨ c = .listenerNotFound) ∨ c.text = ascii (codeWord c) ++ ascii ": " by decide +kernel) c (mem_statusCodes c)

/-! ## The theorems -/

/-- **C26 (headings)** (partial: not the general error, which has none, and "listener not found").  The printed form of an error is the word for its code, a colon and a space, and the message. -/
theorem C26_heading_partial (c : StatusCode) (hc : ¬ Bare c) (m : Bytes) (hm : m.length < 65536) :
    (Status.make c m).toString = some (ascii (codeWord c) ++ ascii ": " ++ m) ∧ Heading (ascii (codeWord c)) (ascii (codeWord c) ++ ascii ": ") := by
  have e := (text_word c).resolve_left hc
  refine ⟨by rw [make_toString (fun h => hc (.inl h)) hm, e], ?_⟩
  have h := (text_heading c).resolve_left hc
  rw [e] at h
  have e' : (ascii (codeWord c) ++ ascii ": ").dropLast.dropLast = ascii (codeWord c) := by
    rw [show ascii ": " = [58] ++ [32] by decide +kernel, ← List.append_assoc, List.dropLast_concat, List.dropLast_concat]
  rw [e'] at h
  exact ⟨h.1, h.2.1, rfl⟩

/-- **C26 (printed forms tell errors apart)** (partial: likewise).  Two such errors with the same printed form have the same code and the same message. -/
theorem C26_read_partial (c c' : StatusCode) (hc : ¬ Bare c) (hc' : ¬ Bare c') (m m' : Bytes) (hm : m.length < 65536) (hm' : m'.length < 65536)
    (h : (Status.make c m).toString = (Status.make c' m').toString) : c = c' ∧ m = m' := by
  rw [make_toString (fun h => hc (.inl h)) hm, make_toString (fun h => hc' (.inl h)) hm', Option.some.injEq] at h
  obtain ⟨-, h1, h2⟩ := (text_heading c).resolve_left hc
  obtain ⟨-, h3, h4⟩ := (text_heading c').resolve_left hc'
  have no : ∀ {n : Bytes}, (∀ b ∈ n, (65 ≤ b ∧ b ≤ 90) ∨ (97 ≤ b ∧ b ≤ 122)) → (58 : UInt8) ∉ n := fun hn hb => by
    rcases hn 58 hb with h | h <;> exact absurd h.1 (by decide)
  generalize c.text.dropLast.dropLast = n at h1 h2
  generalize c'.text.dropLast.dropLast = n' at h3 h4
  have e : ascii ": " = [58, 32] := by decide +kernel
  rw [h2, h4, e] at h
  have := heading_split (no h1) (no h3) (m := 32 :: m) (m' := 32 :: m') (by simpa using h)
  exact ⟨text_inj (by rw [h2, h4, this.1]), by simpa using this.2⟩

example : ¬ Bare .spaceNotFound ∧ (Status.make .spaceNotFound (ascii "nba")).toString = some (ascii "SpaceNotFound: nba") := by
  refine ⟨by unfold Bare; decide, by decide +kernel⟩

/-- **C26 violated.** The message of "listener not found" is glued to the word. -/
theorem C26_listener_violated : (Status.make .listenerNotFound (ascii "part 1")).toString = some (ascii "ListenerNotFoundpart 1") := by decide +kernel

/-- **C26 violated.** A general error can look like any other. -/
theorem C26_general_violated (c : StatusCode) (hc : c ≠ .ok) (m : Bytes) (hm : m.length < 65000) : ∃ m', (Status.make .error m').toString = (Status.make c m).toString ∧ (Status.make .error m').message = some m' := by
  have hl : ∀ c ∈ statusCodes, c.text.length < 100 := by decide +kernel
  have := hl c (mem_statusCodes c)
  have hlen : (c.text ++ m).length < 65536 := by rw [List.length_append]; omega
  refine ⟨c.text ++ m, ?_, ?_⟩
  · rw [make_toString (by decide) hlen, make_toString hc (by omega)]; rfl
  · simp only [Status.make, Status.message, Nat.mod_eq_of_lt hlen, List.take_length, Nat.le_refl, if_true]

/-- **C26 (formats).** A message given as a format with its percent signs doubled arrives, up to 255 bytes. -/
theorem C26_doubled (c : StatusCode) (m : Bytes) (h0 : (0 : UInt8) ∉ m) : ∃ s, Status.fromFormat c (doubled m) = some s ∧ s.message = some (m.take 255) ∧ s.code = c := by
  have hd : (0 : UInt8) ∉ doubled m := by
    simp only [doubled, List.mem_flatMap, not_exists, not_and]
    intro b hb
    split
    · decide
    · intro h; rw [List.mem_singleton.1 h] at h0; exact h0 hb
  refine ⟨Status.make c (m.take 255), ?_, ?_, rfl⟩
  · unfold Status.fromFormat
    rw [cstr_of_no_nul hd, formatNoArgs_doubled]; rfl
  · have hlen : (m.take 255).length ≤ 255 := by rw [List.length_take]; omega
    have e : (m.take 255).length % 65536 = (m.take 255).length := Nat.mod_eq_of_lt (by omega)
    simp only [Status.make, Status.message, e, List.take_length, Nat.le_refl, if_true]

example : Status.fromFormat .error (ascii "95%% used") = some (Status.make .error (ascii "95% used")) := by decide +kernel
end Nebula
