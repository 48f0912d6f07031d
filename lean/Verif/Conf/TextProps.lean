import Verif.Conf.Props
/-! # C97: what else the texts of configurations mean -/
namespace Nebula
namespace Conf
open Json
variable {F : Type}

/-- C97: a text that goes on after the configuration is refused, and the configuration stays as it was. -/
theorem C97_rest (D : Doubles F) {ord : List Bytes → List Bytes} (hord : ∀ l, (ord l).Perm l) (pretty : Bool) (c old : Dyn F) (text blank rest : Bytes) (b : UInt8)
    (hf : Fine D c) (hd : depth c ≤ 100) (h : dumpTo D ord pretty c = some text) (hw : ∀ x ∈ blank, x ∈ ascii " \t\n\r")
    (hb : b ∉ ascii " \t\n\r0123456789-.eE" ∧ b ≠ 0) : parseFromString D old (text ++ (blank ++ b :: rest)) = (.error, old) := by
  obtain ⟨v, ⟨_, h1⟩, _⟩ := value_dump D hord c _ maxDepth text hf hd h
  have hbw : isWs b = false ∧ isDigit b = false ∧ b ≠ 45 ∧ b ≠ 46 ∧ b ≠ 101 ∧ b ≠ 69 :=
    allBytes (P := fun b => b ∉ ascii " \t\n\r0123456789-.eE" → isWs b = false ∧ isDigit b = false ∧ b ≠ 45 ∧ b ≠ 46 ∧ b ≠ 101 ∧ b ≠ 69) (by decide +kernel) b hb.1
  have hbl : Blank blank := fun x hx => allBytes (P := fun b => b ∈ ascii " \t\n\r" → isWs b = true) (by decide +kernel) x (hw x hx)
  have := h1 (blank ++ b :: rest) (ends_blank hbl (ends_cons hbw.2))
  simp [parseFromString, parse, this, skipWs_blank hbl, skipWs_cons hbw.1, hb.2]

theorem insert_find (k : Bytes) (v : Dyn F) (key : Bytes) : ∀ l : List (Bytes × Dyn F),
    ((insert k v l).find? fun e => e.1 == key) = if k = key then some (k, v) else l.find? fun e => e.1 == key
  | [] => by
    by_cases h : k = key <;> simp [Nebula.Json.insert, h]
  | (k', v') :: l => by
    by_cases hk : k' = k
    · subst hk
      by_cases h : k' = key <;> simp [Nebula.Json.insert, h]
    · rw [Nebula.Json.insert, if_neg hk, List.find?_cons, insert_find k v key l, List.find?_cons]
      by_cases h' : k' = key
      · subst h'; simp [Ne.symm hk]
      · have : (k' == key) = false := by simpa using h'
        simp [this]

theorem insertAll_find (key : Bytes) : ∀ (l acc : List (Bytes × Dyn F)),
    ((insertAll acc l).find? fun e => e.1 == key) = (l.reverse.find? fun e => e.1 == key).or (acc.find? fun e => e.1 == key)
  | [], acc => by simp [insertAll]
  | (k, v) :: l, acc => by
    rw [insertAll, insertAll_find key l, insert_find, List.reverse_cons, List.find?_append]
    by_cases h : k = key
    · simp [h]
    · have : (k == key) = false := by simpa using h
      simp [h, this]

theorem sameEntries_reverse {l m : List (Bytes × Dyn F)} (h : SameEntries l m) : SameEntries l.reverse m.reverse := by
  have app : ∀ {a b c d : List (Bytes × Dyn F)}, SameEntries a b → SameEntries c d → SameEntries (a ++ c) (b ++ d) := by
    intro a
    induction a with
    | nil => intro b c d h1 h2; cases h1; exact h2
    | cons e a ih => intro b c d h1 h2; cases h1 with
      | cons h1 h3 => exact .cons h1 (ih h3 h2)
  induction l generalizing m with
  | nil => cases h; exact .nil
  | cons e l ih => cases h with
    | cons h1 h2 => simp only [List.reverse_cons]; exact app (ih h2) (.cons h1 .nil)

/-- C97: in a text that gives an item several times the last one counts. -/
theorem C97_repeated (D : Doubles F) (pretty : Bool) (l : List (Bytes × Dyn F)) (old : Dyn F) (text : Bytes) (hf : FineEntries D l)
    (hd : depth (.obj l) ≤ 100) (h : dumpTo D id pretty (.obj l) = some text) :
    ∃ m, parseFromString D old text = (.ok, .obj m) ∧
      (∀ key before v after, l = before ++ (key, v) :: after → (∀ w, (key, w) ∉ after) → ∃ w, Item (.obj m) key w ∧ Same v w) ∧
      (∀ key, (∀ v, (key, v) ∉ l) → NoItem (.obj m) key) := by
  have hd : depthEntries l ≤ 99 := by simp only [depth] at hd; omega
  simp only [dumpTo, dump, Option.map_eq_some_iff, id] at h
  obtain ⟨es, hes, rfl⟩ := h
  obtain ⟨vs, h1, h2, hk⟩ := back_entries (entries_dump D (ord := id) (fun l => .refl l) l _ 99 es hf hd hes)
  obtain ⟨t, ht, ha⟩ := object_reads_all _ h1 []
  rw [List.append_nil] at ha
  refine ⟨insertAll [] vs, ?_, ?_, ?_⟩
  · have : value D maxDepth (123 :: t) = some (.obj (insertAll [] vs), []) := by
      rw [show maxDepth = 99 + 1 from rfl, value, skipWs_cons (by decide)]
      simp only [if_neg (show ¬ ((123 : UInt8) = 91) by decide), if_true, ha]
    rw [ht]
    simp [parseFromString, parse, this, skipWs]
  · rintro key before v after rfl hn
    have hf : ((before ++ (key, v) :: after).reverse.find? fun e => e.1 == key) = some (key, v) := by
      have : (after.reverse.find? fun e => e.1 == key) = none := by
        rw [List.find?_eq_none]
        rintro ⟨k, w⟩ hm hkk
        simp at hkk; subst hkk
        exact hn w (List.mem_reverse.mp hm)
      simp [List.find?_append, this]
    obtain ⟨w, hw, hs⟩ := sameEntries_find (sameEntries_reverse h2) key v hf
    exact ⟨w, ⟨_, rfl, by rw [insertAll_find, hw]; rfl⟩, hs⟩
  · intro key hn
    have : find (.obj (insertAll [] vs)) key = some none := by
      simp only [find, insertAll_find, List.find?_nil, Option.or_none, Option.some.injEq, Option.map_eq_none_iff, List.find?_eq_none]
      rintro ⟨k, w⟩ hm hkk
      simp at hkk; subst hkk
      have : k ∈ vs.map (·.1) := List.mem_map.mpr ⟨_, List.mem_reverse.mp hm, rfl⟩
      rw [hk] at this
      obtain ⟨⟨k', v⟩, hv, rfl⟩ := List.mem_map.mp this
      exact hn v hv
    exact find_noItem.mp this

example : ∃ text, dumpTo sampleDoubles id false (.obj [(ascii "a", .int 1), (ascii "b", .int 2), (ascii "a", .int 3)]) = some text ∧
    text = ascii "{\"a\":1,\"b\":2,\"a\":3}" ∧ FineEntries sampleDoubles [(ascii "a", .int 1), (ascii "b", .int 2), (ascii "a", .int 3)] :=
  ⟨_, rfl, by decide +kernel, by simp [FineEntries, Fine]; decide⟩

/-! ## Escapes -/

/-- The digits of hexadecimal numbers, small or capital. -/
def digit16 (capital : Bool) (n : Nat) : UInt8 := (if capital then ascii "0123456789ABCDEF" else ascii "0123456789abcdef").getD n 0

/-- `\uXXXX`. -/
def uText (capital : Bool) (n : Nat) : Bytes :=
  [92, 117, digit16 capital (n / 4096 % 16), digit16 capital (n / 256 % 16), digit16 capital (n / 16 % 16), digit16 capital (n % 16)]

/-- A character as an escape of JSON (RFC 8259, section 7): beyond the basic plane as a pair of surrogates. -/
def charText (capital : Bool) (c : Char) : Bytes :=
  if c.val.toNat < 0x10000 then uText capital c.val.toNat
  else uText capital (0xD800 + (c.val.toNat - 0x10000) / 1024) ++ uText capital (0xDC00 + (c.val.toNat - 0x10000) % 1024)

theorem hexVal_digit (capital : Bool) (n : Nat) (h : n < 16) : hexVal (digit16 capital n) = some n := by
  have : ∀ n : Fin 16, hexVal (digit16 capital n.val) = some n.val := by cases capital <;> decide +kernel
  exact this ⟨n, h⟩

theorem hex4_text (capital : Bool) (n : Nat) (h : n < 65536) (r : Bytes) : hex4 ((uText capital n).drop 2 ++ r) = some (n, r) := by
  simp only [uText, List.drop_succ_cons, List.drop_zero, List.cons_append, List.nil_append, hex4]
  rw [hexVal_digit _ _ (by omega), hexVal_digit _ _ (by omega), hexVal_digit _ _ (by omega), hexVal_digit _ _ (by omega)]
  simp only [Option.bind_some, Option.map_some, Option.some.injEq, Prod.mk.injEq, and_true]
  omega

theorem utf8_char (c : Char) : utf8 c.val.toNat = String.utf8EncodeChar c := by
  have hv := c.valid
  have hlt : c.val.toNat < 0x110000 := by
    rcases hv with h | h
    · have : c.val.toNat < 0xD800 := h
      omega
    · exact h.2
  unfold utf8 String.utf8EncodeChar
  generalize c.val.toNat = v at hlt
  have e : ∀ a b : Nat, a = b → UInt8.ofNat a = UInt8.ofNat b := fun _ _ h => by rw [h]
  simp only
  by_cases h1 : v < 0x80
  · rw [if_pos h1, if_pos (by omega)]
  · rw [if_neg h1, if_neg (show ¬ v ≤ 0x7f by omega)]
    by_cases h2 : v < 0x800
    · rw [if_pos h2, if_pos (show v ≤ 0x7ff by omega), e _ _ (show 0xC0 + v / 64 = v / 64 % 0x20 + 0xc0 by omega), e _ _ (show 0x80 + v % 64 = v % 0x40 + 0x80 by omega)]
    · rw [if_neg h2, if_neg (show ¬ v ≤ 0x7ff by omega)]
      by_cases h3 : v < 0x10000
      · rw [if_pos h3, if_pos (show v ≤ 0xffff by omega), e _ _ (show 0xE0 + v / 4096 = v / 4096 % 0x10 + 0xe0 by omega),
          e _ _ (show 0x80 + v / 64 % 64 = v / 64 % 0x40 + 0x80 by omega), e _ _ (show 0x80 + v % 64 = v % 0x40 + 0x80 by omega)]
      · rw [if_neg h3, if_neg (show ¬ v ≤ 0xffff by omega), e _ _ (show 0xF0 + v / 262144 = v / 262144 % 0x08 + 0xf0 by omega),
          e _ _ (show 0x80 + v / 4096 % 64 = v / 4096 % 0x40 + 0x80 by omega),
          e _ _ (show 0x80 + v / 64 % 64 = v / 64 % 0x40 + 0x80 by omega), e _ _ (show 0x80 + v % 64 = v % 0x40 + 0x80 by omega)]

theorem uText_cons (capital : Bool) (n : Nat) : uText capital n = 92 :: 117 :: (uText capital n).drop 2 := rfl

theorem unicode_basic (capital : Bool) (v : Nat) (h : v < 0x10000) (hs : ¬ (0xD800 ≤ v ∧ v < 0xDC00)) (hs' : ¬ (0xDC00 ≤ v ∧ v < 0xE000)) (r : Bytes) :
    unicodeEscape ((uText capital v).drop 2 ++ r) = some (utf8 v, r) := by
  rw [unicodeEscape, hex4_text _ _ h]
  simp only [Option.bind_some]
  rw [if_neg hs, if_neg hs']

theorem unicode_pair (capital : Bool) (v hi lo : Nat) (hhi : 0xD800 ≤ hi ∧ hi < 0xDC00) (hlo : 0xDC00 ≤ lo ∧ lo < 0xE000)
    (hv : 0x10000 + (hi - 0xD800) * 1024 + (lo - 0xDC00) = v) (r : Bytes) :
    unicodeEscape ((uText capital hi).drop 2 ++ (uText capital lo ++ r)) = some (utf8 v, r) := by
  rw [unicodeEscape, hex4_text _ _ (by omega)]
  simp only [Option.bind_some]
  rw [if_pos hhi]
  have hc : consume [92, 117] (uText capital lo ++ r) = some ((uText capital lo).drop 2 ++ r) := by
    simp [consume, uText, List.isPrefixOf]
  rw [hc, Option.bind_some, hex4_text _ _ (by omega), Option.bind_some]
  simp only
  rw [if_pos hlo, hv]

theorem char_range (c : Char) : c.val.toNat < 0xD800 ∨ (0xDFFF < c.val.toNat ∧ c.val.toNat < 0x110000) := c.valid

theorem unicode_char (capital : Bool) (c : Char) (r : Bytes) : ∃ t, charText capital c = 92 :: 117 :: t ∧
    unicodeEscape (t ++ r) = some (String.utf8EncodeChar c, r) := by
  rw [← utf8_char]
  have hv := char_range c
  unfold charText
  generalize c.val.toNat = v at hv
  by_cases h : v < 0x10000
  · rw [if_pos h]
    exact ⟨(uText capital v).drop 2, uText_cons _ _, unicode_basic capital v h (by omega) (by omega) r⟩
  · rw [if_neg h]
    refine ⟨(uText capital (0xD800 + (v - 0x10000) / 1024)).drop 2 ++ uText capital (0xDC00 + (v - 0x10000) % 1024),
      by rw [← List.cons_append, ← List.cons_append, ← uText_cons], ?_⟩
    rw [List.append_assoc]
    exact unicode_pair capital v _ _ (by omega) (by omega) (by omega) r

theorem stringBody_chars (r : Bytes) : ∀ (l : List (Bool × Char)) (n : Nat), l.length < n →
    stringBody n (l.flatMap (fun x => charText x.1 x.2) ++ 34 :: r) = some (l.flatMap (fun x => String.utf8EncodeChar x.2), r)
  | [], n, h => by
    obtain ⟨m, rfl⟩ : ∃ m, n = m + 1 := ⟨n - 1, by simp at h; omega⟩
    simp [stringBody]
  | x :: l, n, h => by
    obtain ⟨m, rfl⟩ : ∃ m, n = m + 1 := ⟨n - 1, by simp at h; omega⟩
    obtain ⟨t, ht, hu⟩ := unicode_char x.1 x.2 (l.flatMap (fun x => charText x.1 x.2) ++ 34 :: r)
    rw [List.flatMap_cons, ht, List.append_assoc, List.cons_append, List.cons_append, stringBody, if_neg (by decide), if_pos rfl]
    have hun : unescape (117 :: (t ++ (l.flatMap (fun x => charText x.1 x.2) ++ 34 :: r))) = unicodeEscape (t ++ (l.flatMap (fun x => charText x.1 x.2) ++ 34 :: r)) := by
      simp [unescape]
    rw [hun, hu]
    simp only [Option.bind_some]
    rw [stringBody_chars r l m (by simp at h; omega)]
    simp

/-- C97: a text all of whose characters are written as escapes is read as those characters, encoded as UTF-8. -/
theorem C97_unicode (D : Doubles F) (l : List (Bool × Char)) (old : Dyn F) :
    parseFromString D old (ascii "\"" ++ (l.flatMap (fun x : Bool × Char => charText x.1 x.2) ++ ascii "\"")) =
      (.ok, .str (l.flatMap fun x => String.utf8EncodeChar x.2)) := by
  have hlen : l.length ≤ (l.flatMap (fun x : Bool × Char => charText x.1 x.2)).length := by
    induction l with
    | nil => simp
    | cons x l ih =>
      obtain ⟨t, ht, _⟩ := unicode_char x.1 x.2 []
      rw [List.flatMap_cons, List.length_append, ht]; simp only [List.length_cons]; omega
  have := stringBody_chars [] l ((l.flatMap (fun x : Bool × Char => charText x.1 x.2) ++ [34]).length + 1) (by rw [List.length_append]; omega)
  have hv : value D maxDepth (34 :: (l.flatMap (fun x : Bool × Char => charText x.1 x.2) ++ [34])) = some (.str (l.flatMap fun x => String.utf8EncodeChar x.2), []) := by
    rw [show maxDepth = 99 + 1 from rfl, value, skipWs_cons (by decide)]
    simp only [if_neg (show ¬ ((34 : UInt8) = 91) by decide), if_neg (show ¬ ((34 : UInt8) = 123) by decide), if_true]
    rw [string, this]; rfl
  rw [show ascii "\"" = [34] by decide +kernel, List.singleton_append]
  simp [parseFromString, parse, hv, skipWs]

example : charText false '€' = ascii "\\u20ac" ∧ charText true '😀' = ascii "\\uD83D\\uDE00" ∧ String.utf8EncodeChar '😀' = [0xF0, 0x9F, 0x98, 0x80] := by decide +kernel

end Conf
end Nebula
