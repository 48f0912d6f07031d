import Verif.Text
/-!
# C138: character sets and collations

Model of `src/common/charset/Charset.{h,cpp}` and the theorems about it.
-/
namespace Nebula.Charset

/-- `CharsetDesc` (Charset.h:16-27) without the description and the length. -/
structure Desc where
  charset : Bytes
  default : Bytes
  collations : List Bytes
deriving DecidableEq, Repr

/-- `CharsetInfo` (Charset.h:75-89). The map is a list of entries with distinct keys, in the order in which
it is walked. -/
structure Info where
  charsets : List Bytes
  collations : List Bytes
  descs : List (Bytes × Desc)
deriving DecidableEq, Repr

/-- The one instance (Charset.h:32-35, 71-82). -/
def info : Info :=
  ⟨[ascii "utf8"], [ascii "utf8_bin"], [(ascii "utf8", ⟨ascii "utf8", ascii "utf8_bin", [ascii "utf8_bin"]⟩)]⟩

/-- Charset.cpp:11-16 `isSupportCharset`: whether the status is OK. -/
def Info.isSupportCharset (i : Info) (c : Bytes) : Bool := i.charsets.contains c

/-- Charset.cpp:19-24 `isSupportCollate`. -/
def Info.isSupportCollate (i : Info) (c : Bytes) : Bool := i.collations.contains c

/-- Charset.cpp:27-39 `charsetAndCollateMatch`. -/
def Info.charsetAndCollateMatch (i : Info) (cs co : Bytes) : Bool :=
  match i.descs.lookup cs with
  | some d => d.collations.any fun x => x == co
  | none => false

/-- Charset.cpp:42-48 `getDefaultCollationbyCharset`. -/
def Info.getDefaultCollationbyCharset (i : Info) (cs : Bytes) : Option Bytes := (i.descs.lookup cs).map (·.default)

/-- Charset.cpp:51-60 `getCharsetbyCollation`. -/
def Info.getCharsetbyCollation (i : Info) (co : Bytes) : Option Bytes :=
  (i.descs.find? fun e => e.2.collations.any fun x => x == co).map (·.1)

/-! ## C138 -/

/-- The three tables agree: every character set listed is described under its own name, every collation listed
belongs to one that is described, and the default is among the collations. -/
structure Consistent (i : Info) : Prop where
  charsets : ∀ c, c ∈ i.charsets ↔ ∃ d, (c, d) ∈ i.descs
  collations : ∀ c, c ∈ i.collations ↔ ∃ e ∈ i.descs, c ∈ e.2.collations
  keys : (i.descs.map (·.1)).Nodup
  default : ∀ e ∈ i.descs, e.2.default ∈ e.2.collations
  /-- no two character sets share a collation -/
  apart : ∀ e ∈ i.descs, ∀ f ∈ i.descs, ∀ c, c ∈ e.2.collations → c ∈ f.2.collations → e = f

theorem lookup_iff {l : List (Bytes × Desc)} (h : (l.map (·.1)).Nodup) (c : Bytes) (d : Desc) : l.lookup c = some d ↔ (c, d) ∈ l := by
  induction l with
  | nil => simp
  | cons e l ih =>
    obtain ⟨k, v⟩ := e
    simp only [List.map_cons, List.nodup_cons] at h
    by_cases hk : c = k
    · subst hk
      simp only [List.lookup_cons, beq_self_eq_true, List.mem_cons, Prod.mk.injEq, true_and]
      constructor
      · intro h'; exact .inl (Option.some.inj h').symm
      · rintro (rfl | h')
        · rfl
        · exact absurd (List.mem_map.2 ⟨_, h', rfl⟩) h.1
    · have : (c == k) = false := by simpa using hk
      simp only [List.lookup_cons, this, ih h.2, List.mem_cons, Prod.mk.injEq, hk, false_and, false_or]

/-- The tables of the code agree. -/
theorem C138_consistent : Consistent info := by
  refine ⟨?_, ?_, by decide +kernel, by decide +kernel, ?_⟩
  · intro c; simp [info]
  · intro c; simp [info]
  · intro e he f hf c _ _
    simp [info] at he hf
    rw [he, hf]

/-- C138, for any tables that agree: a character set is supported exactly if it has a default collation, and
then that collation is supported, belongs to it and leads back to it. -/
theorem C138_charset (i : Info) (h : Consistent i) (c : Bytes) :
    (i.isSupportCharset c = true ↔ ∃ d, i.getDefaultCollationbyCharset c = some d) ∧
    (∀ d, i.getDefaultCollationbyCharset c = some d →
      i.isSupportCollate d = true ∧ i.charsetAndCollateMatch c d = true ∧ i.getCharsetbyCollation d = some c) := by
  have hl := lookup_iff h.keys
  have back : ∀ c d co, (c, d) ∈ i.descs → co ∈ d.collations → i.getCharsetbyCollation co = some c := by
    intro c d co hm hc
    have hs : (i.descs.find? fun e => e.2.collations.any fun x => x == co).isSome = true := by
      rw [List.find?_isSome]; exact ⟨(c, d), hm, by simpa using hc⟩
    obtain ⟨e, he⟩ := Option.isSome_iff_exists.1 hs
    have h1 := List.mem_of_find?_eq_some he
    have h2 := List.find?_some he
    simp only [List.any_eq_true, beq_iff_eq] at h2
    obtain ⟨x, hx, rfl⟩ := h2
    have := h.apart e h1 (c, d) hm x hx hc
    simp [Info.getCharsetbyCollation, he, this]
  constructor
  · simp only [Info.isSupportCharset, List.contains_iff_mem, h.charsets, Info.getDefaultCollationbyCharset, Option.map_eq_some_iff]
    constructor
    · rintro ⟨d, hd⟩; exact ⟨_, d, (hl c d).2 hd, rfl⟩
    · rintro ⟨_, d, hd, _⟩; exact ⟨d, (hl c d).1 hd⟩
  · intro co hco
    simp only [Info.getDefaultCollationbyCharset, Option.map_eq_some_iff] at hco
    obtain ⟨d, hd, rfl⟩ := hco
    have hm := (hl c d).1 hd
    have hdef := h.default _ hm
    refine ⟨?_, ?_, back c d _ hm hdef⟩
    · simp only [Info.isSupportCollate, List.contains_iff_mem, h.collations]; exact ⟨_, hm, hdef⟩
    · simp only [Info.charsetAndCollateMatch, hd, List.any_eq_true, beq_iff_eq]; exact ⟨_, hdef, rfl⟩

/-- C138, for any tables that agree: a collation is supported exactly if it has a character set; that one is
supported, matches the collation, and is the only one that does. -/
theorem C138_collation (i : Info) (h : Consistent i) (co : Bytes) :
    (i.isSupportCollate co = true ↔ ∃ c, i.getCharsetbyCollation co = some c) ∧
    (∀ c, i.charsetAndCollateMatch c co = true ↔ i.getCharsetbyCollation co = some c) ∧
    (∀ c, i.getCharsetbyCollation co = some c → i.isSupportCharset c = true) := by
  have hl := lookup_iff h.keys
  have m : ∀ c, i.charsetAndCollateMatch c co = true ↔ ∃ d, (c, d) ∈ i.descs ∧ co ∈ d.collations := by
    intro c
    simp only [Info.charsetAndCollateMatch]
    cases hc : i.descs.lookup c with
    | none =>
      simp only [Bool.false_eq_true, false_iff]
      rintro ⟨d, hd, _⟩
      rw [(hl c d).2 hd] at hc; cases hc
    | some d =>
      simp only [List.any_eq_true, beq_iff_eq, exists_eq_right]
      constructor
      · intro h; exact ⟨d, (hl c d).1 hc, h⟩
      · rintro ⟨d', hd, h⟩
        rw [(hl c d').2 hd] at hc; cases hc; exact h
  have g : ∀ c, i.getCharsetbyCollation co = some c ↔ ∃ d, (c, d) ∈ i.descs ∧ co ∈ d.collations := by
    intro c
    simp only [Info.getCharsetbyCollation, Option.map_eq_some_iff]
    constructor
    · rintro ⟨e, he, rfl⟩
      have h2 := List.find?_some he
      simp only [List.any_eq_true, beq_iff_eq, exists_eq_right] at h2
      exact ⟨e.2, List.mem_of_find?_eq_some he, h2⟩
    · rintro ⟨d, hm, hc⟩
      have hs : (i.descs.find? fun e => e.2.collations.any fun x => x == co).isSome = true := by
        rw [List.find?_isSome]; exact ⟨(c, d), hm, by simpa using hc⟩
      obtain ⟨e, he⟩ := Option.isSome_iff_exists.1 hs
      have h2 := List.find?_some he
      simp only [List.any_eq_true, beq_iff_eq, exists_eq_right] at h2
      have := h.apart e (List.mem_of_find?_eq_some he) (c, d) hm co h2 hc
      exact ⟨e, he, by rw [this]⟩
  refine ⟨?_, fun c => (m c).trans (g c).symm, ?_⟩
  · simp only [Info.isSupportCollate, List.contains_iff_mem, h.collations, g]
    constructor
    · rintro ⟨e, he, hc⟩; exact ⟨e.1, e.2, he, hc⟩
    · rintro ⟨c, d, hm, hc⟩; exact ⟨_, hm, hc⟩
  · intro c hc
    obtain ⟨d, hm, _⟩ := (g c).1 hc
    simp only [Info.isSupportCharset, List.contains_iff_mem, h.charsets]; exact ⟨d, hm⟩

/-- C138: what the code supports. -/
theorem C138_supported (c : Bytes) : (info.isSupportCharset c = true ↔ c = ascii "utf8") ∧ (info.isSupportCollate c = true ↔ c = ascii "utf8_bin") ∧
    info.getDefaultCollationbyCharset (ascii "utf8") = some (ascii "utf8_bin") := by
  refine ⟨by simp [Info.isSupportCharset, info], by simp [Info.isSupportCollate, info], by decide +kernel⟩

end Nebula.Charset
