import Verif.Conf.FlagsSpec
import Verif.Conf.Props
/-! # C99: the registered flags -/
namespace Nebula
namespace Conf
open Json
variable {F : Type}

theorem asString_iff {C : Conv F} {v : Dyn F} {s : Bytes} : asString C v = some s ↔ ScalarText C v s := by
  have e1 : ascii "1" = [49] := by decide +kernel
  have e0 : ascii "0" = [48] := by decide +kernel
  constructor
  · intro h
    cases v with
    | bool b => cases b <;> simp [asString] at h <;> subst h
                · rw [← e0]; exact .no
                · rw [← e1]; exact .yes
    | int i => simp [asString] at h; subst h; exact .int i
    | dbl d => simp [asString] at h; subst h; exact .dbl d
    | str t => simp [asString] at h; subst h; exact .str t
    | _ => simp [asString] at h
  · intro h
    cases h <;> simp [asString, e1, e0]

theorem forEach_entries {C : Conv F} : ∀ (l : List (Bytes × Dyn F)) (ts acc : AMap Bytes Bytes), All2 (fun e t => e.1 = t.1 ∧ ScalarText C e.2 t.2) l ts →
    ((acc ++ ts).map Prod.fst).Nodup → forEachItem.go (addEntry C) l acc = (.ok, acc ++ ts)
  | [], _, acc, .nil, _ => by simp [forEachItem.go]
  | (k, v) :: l, _, acc, .cons (b := (k', s)) (m := m) ⟨hk, hs⟩ h, hn => by
    simp only at hk hs; subst hk
    have hf : acc.find k = none := (AMap.find_none_iff acc k).mpr (by
      rw [List.map_append, List.nodup_append] at hn
      exact fun hm => hn.2.2 k hm k (by simp) rfl)
    have he : acc.emplace k s = acc ++ [(k, s)] := by
      have : ∀ acc : AMap Bytes Bytes, acc.find k = none → acc.set k s = acc ++ [(k, s)] := by
        intro acc
        induction acc with
        | nil => intro _; rfl
        | cons e acc ih =>
          intro hh
          obtain ⟨a, b⟩ := e
          simp only [AMap.find] at hh
          split at hh
          · simp at hh
          · rename_i hne; simp [AMap.set, hne, ih hh]
      rw [AMap.emplace, hf]; exact this acc hf
    rw [forEachItem.go, addEntry, asString_iff.mpr hs]
    simp only [Option.map_some, he]
    rw [forEach_entries l m _ h (by simpa using hn)]
    simp

/-- C99: a flag whose text stands for a value is given that value. -/
theorem value_means {D : Doubles F} {C : Conv F} {T : Texts F} {nested : Bool} {ty text : Bytes} {v : FlagVal F} (h : Means D C T nested ty text v) :
    gflagsValueToValue D C T (if nested then ascii "map" else ty) text = some v := by
  cases h with
  | int ht hn =>
    simp only [Bool.false_eq_true, if_false]
    rw [gflagsValueToValue, if_pos, hn]; · rfl
    simp only [intTypes, List.mem_cons, List.not_mem_nil, or_false] at ht
    rcases ht with rfl | rfl | rfl | rfl <;> decide +kernel
  | dbl ht hd =>
    subst ht
    simp only [Bool.false_eq_true, if_false]
    rw [gflagsValueToValue, if_neg (by decide +kernel), if_pos rfl, hd]; rfl
  | bool ht hb =>
    subst ht
    simp only [Bool.false_eq_true, if_false]
    rw [gflagsValueToValue, if_neg (by decide +kernel), if_neg (by decide +kernel), if_pos rfl, hb]; rfl
  | str _ ht =>
    subst ht
    simp only [Bool.false_eq_true, if_false]
    rw [gflagsValueToValue, if_neg (by decide +kernel), if_neg (by decide +kernel), if_neg (by decide +kernel), if_pos rfl]
  | @map _ _ l m hp h2 hn =>
    simp only [if_true]
    rw [gflagsValueToValue, if_neg (by decide +kernel), if_neg (by decide +kernel), if_neg (by decide +kernel), if_neg (by decide +kernel), if_pos rfl]
    simp only [parseFromString, hp, forEachItem]
    have hk : m.map Prod.fst = l.map (·.1) := by
      clear hp hn
      induction h2 with
      | nil => rfl
      | cons h _ ih => simp [ih, h.1]
    rw [forEach_entries l m [] h2 (by simpa [hk] using hn)]
    rfl

/-- C99: which flags are mutable and which are nested.  Without a readable file the defaults hold; names listed under MUTABLE are added (as plain flags),
then those listed under NESTED (as nested ones). -/
theorem C99_modes (D : Doubles F) (C : Conv F) (file : File) :
    (∀ r c, parseFromFile D (.obj []) file = (r, c) → r ≠ .ok → parseConfigJson D C file = some defaultModes) ∧
    (∀ l plain nested, parseFromFile D (.obj []) file = (.ok, .obj l) → Listed C (.obj l) (ascii "MUTABLE") plain → Listed C (.obj l) (ascii "NESTED") nested →
      ∃ m, parseConfigJson D C file = some m ∧ ∀ name, m.find name =
        if name ∈ nested then some true else if name ∈ plain then some false else defaultModes.find name) := by
  have henter : ∀ (b : Bool) (ns : List Bytes) (m : AMap Bytes Bool) (name : Bytes), (enter b m ns).find name = if name ∈ ns then some b else m.find name := by
    intro b ns
    induction ns with
    | nil => intro m name; simp [enter]
    | cons n ns ih =>
      intro m name
      rw [enter, ih, AMap.find_set]
      by_cases h1 : name ∈ ns
      · simp [h1]
      · by_cases h2 : n = name
        · simp [h1, h2]
        · have h3 : name ∉ n :: ns := by simp [h1, Ne.symm h2]
          rw [if_neg h1, if_neg h3, if_neg h2]
  have hlist : ∀ (l : List (Bytes × Dyn F)) key names, Listed C (.obj l) key names → ∀ b (m : AMap Bytes Bool), ∃ r, fetchAsArray (asString C) (.obj l) key [] = some r ∧
      ∀ name, (if r.1 = .ok then enter b m r.2 else m).find name = if name ∈ names then some b else m.find name := by
    rintro l key names (⟨es, hi, ha⟩ | ⟨rfl, hbad⟩) b m
    · have hm : es.map (asString C) = names.map some := by
        clear hi
        induction ha with
        | nil => rfl
        | cons h _ ih => simp [asString_iff.mpr h, ih]
      exact ⟨_, (C96_array_partial (asString C) l key []).1 es names hi hm, fun name => by simp [henter]⟩
    · by_cases hex : ∃ es, Item (.obj l) key (.arr es)
      · obtain ⟨es, hi⟩ := hex
        obtain ⟨v, hv, hs⟩ := hbad es hi
        obtain ⟨out, ho, _⟩ := (C96_array_partial (asString C) l key []).2.2 es hi ⟨v, hv, by
          cases h : asString C v with
          | none => rfl
          | some s => exact absurd (asString_iff.mp h) (hs s)⟩
        exact ⟨_, ho, by simp⟩
      · exact ⟨_, (C96_array_partial (asString C) l key []).2.1 fun es h => hex ⟨es, h⟩, by simp⟩
  refine ⟨fun r c h hr => ?_, fun l plain nested h hp hn => ?_⟩
  · rw [parseConfigJson, h]
    cases r with
    | ok => exact absurd rfl hr
    | _ => rfl
  · obtain ⟨r1, h1, e1⟩ := hlist l _ plain hp false defaultModes
    obtain ⟨r2, h2, e2⟩ := hlist l _ nested hn true (if r1.1 = .ok then enter false defaultModes r1.2 else defaultModes)
    refine ⟨if r2.1 = .ok then enter true (if r1.1 = .ok then enter false defaultModes r1.2 else defaultModes) r2.2
      else (if r1.1 = .ok then enter false defaultModes r1.2 else defaultModes), ?_, fun name => ?_⟩
    · rw [parseConfigJson, h]; simp only [h1, h2, Option.bind_some, Option.map_some]
    · rw [e2, e1]

/-- C99: the registered items are exactly the mutable flags, in order, each with its name and the value its current text stands for. -/
theorem C99_declared_partial (D : Doubles F) (C : Conv F) (T : Texts F) (file : File) (flags : List FlagInfo) (module : Int) (hm : module ≠ 0)
    {modes : AMap Bytes Bool} (hmodes : parseConfigJson D C file = some modes)
    (hall : ∀ f ∈ flags, ∀ nested, modes.find f.name = some nested → ∃ v, Means D C T nested f.type f.current v) :
    ∃ items, declareGflags D C T file flags module = some items ∧
      All2 (fun f i => i.name = f.name ∧ i.module = module ∧ ∃ nested, modes.find f.name = some nested ∧ Means D C T nested f.type f.current i.value)
        (flags.filter fun f => (modes.find f.name).isSome) items := by
  rw [declareGflags, if_neg hm, hmodes, Option.bind_some]
  induction flags with
  | nil => exact ⟨[], rfl, .nil⟩
  | cons f fs ih =>
    obtain ⟨items, h1, h2⟩ := ih fun g hg => hall g (List.mem_cons_of_mem _ hg)
    rw [declareLoop]
    cases hf : modes.find f.name with
    | none => exact ⟨items, h1, by simpa [hf] using h2⟩
    | some nested =>
      obtain ⟨v, hv⟩ := hall f (by simp) nested hf
      refine ⟨⟨f.name, module, v⟩ :: items, ?_, ?_⟩
      · simp only [value_means hv, Option.bind_some]
        cases hv <;> simp only [h1, Option.map_some]
      · rw [List.filter_cons, if_pos (by simp [hf])]
        exact .cons ⟨rfl, rfl, nested, hf, hv⟩ h2

/-- C99: a process of unknown kind registers nothing. -/
theorem C99_unknown (D : Doubles F) (C : Conv F) (T : Texts F) (file : File) (flags : List FlagInfo) : declareGflags D C T file flags 0 = some [] := rfl

/-- C99 fails for nested flags with an entry that is not a scalar: that entry and those after it are silently left out. -/
theorem C99_nested_violated (D : Doubles F) (C : Conv F) (T : Texts F) :
    gflagsValueToValue D C T (ascii "map") (ascii "{\"a\":\"1\",\"b\":{},\"c\":\"2\"}") = some (.map [(ascii "a", ascii "1")]) := by
  rw [gflagsValueToValue, if_neg (by decide +kernel), if_neg (by decide +kernel), if_neg (by decide +kernel), if_neg (by decide +kernel), if_pos rfl]
  rw [show ascii "{\"a\":\"1\",\"b\":{},\"c\":\"2\"}" = [123, 34, 97, 34, 58, 34, 49, 34, 44, 34, 98, 34, 58, 123, 125, 44, 34, 99, 34, 58, 34, 50, 34, 125] by decide +kernel, show ascii "a" = [97] by decide +kernel, show ascii "1" = [49] by decide +kernel]
  rfl

/-- C99 fails for a nested flag whose text is JSON but not an object, for an unsigned flag beyond the 64-bit signed range, and for a file whose JSON is
not an object: an exception leaves the registration. -/
theorem C99_exception_violated (D : Doubles F) (C : Conv F) (T : Texts F) (hT : T.toInt (ascii "18446744073709551615") = none) :
    gflagsValueToValue D C T (ascii "map") (ascii "[1]") = none ∧
    gflagsValueToValue D C T (ascii "uint64") (ascii "18446744073709551615") = none ∧
    parseConfigJson D C (.data (ascii "[1]")) = none := by
  have hp : ∀ c : Dyn F, parseFromString D c (ascii "[1]") = (.ok, .arr [.int 1]) := fun c => (C96_not_object_violated D c []).1
  refine ⟨?_, ?_, ?_⟩
  · rw [gflagsValueToValue, if_neg (by decide +kernel), if_neg (by decide +kernel), if_neg (by decide +kernel), if_neg (by decide +kernel), if_pos rfl, hp]
    rfl
  · rw [gflagsValueToValue, if_pos (by decide +kernel), hT]; rfl
  · have hf : parseFromFile D (.obj []) (.data (ascii "[1]")) = (.ok, .arr [.int 1]) := by
      rw [parseFromFile, if_neg (by decide +kernel), show strip false (cstr (ascii "[1]")) = ascii "[1]" by decide +kernel, hp]
    rw [parseConfigJson, hf]; rfl

/-! ## The module of the process -/

theorem occurs_iff (sub : Bytes) : ∀ s : Bytes, occurs sub s = true ↔ sub <:+: s
  | [] => by simp [occurs, List.isPrefixOf_iff_prefix]
  | c :: s => by
    rw [occurs, Bool.or_eq_true, occurs_iff sub s, List.isPrefixOf_iff_prefix, List.infix_cons_iff]

/-- C99: a process whose pid file names one of the daemons is registered as that daemon's module. -/
theorem C99_module (p : Bytes) (cur : Int) :
    (ascii "nebula-graphd" <:+: p → getGflagsModule (some p) cur = 2) ∧
    (¬ ascii "nebula-graphd" <:+: p → ascii "nebula-storaged" <:+: p → getGflagsModule (some p) cur = 4) ∧
    (¬ ascii "nebula-graphd" <:+: p → ¬ ascii "nebula-storaged" <:+: p → ascii "nebula-metad" <:+: p → getGflagsModule (some p) cur = 3) ∧
    (¬ ascii "nebula-graphd" <:+: p → ¬ ascii "nebula-storaged" <:+: p → ¬ ascii "nebula-metad" <:+: p → getGflagsModule (some p) cur = cur) ∧
    getGflagsModule none cur = cur := by
  simp only [getGflagsModule, occurs_iff]
  refine ⟨fun h => by simp [h], fun h1 h2 => by simp [h1, h2], fun h1 h2 h3 => by simp [h1, h2, h3], fun h1 h2 h3 => by simp [h1, h2, h3], trivial⟩

example : ascii "nebula-storaged" <:+: ascii "pids/nebula-storaged.pid" ∧ ¬ ascii "nebula-graphd" <:+: ascii "pids/nebula-storaged.pid" := by
  rw [← occurs_iff, ← occurs_iff]; decide +kernel

/-- Conversions of decimal texts only. -/
def sampleConv : Conv Nat := ⟨fun _ => none, fun _ => none, fun _ => none, fun _ => 0, fun _ => none, fun _ => none, fun _ => none, fun _ => none, sampleDoubles.text⟩
def sampleTexts : Texts Nat := ⟨toI64, fun _ => none, fun s => if s = ascii "true" then some true else if s = ascii "false" then some false else none⟩

def sampleFlags : List FlagInfo :=
  [⟨ascii "wal_ttl", ascii "int32", ascii "86400", ascii "86400", [], [], true⟩, ⟨ascii "port", ascii "int32", ascii "9779", ascii "0", [], [], false⟩,
   ⟨ascii "rocksdb_db_options", ascii "string", ascii "{\"max\": 4, \"k\": \"v\"}", ascii "{}", [], [], false⟩]

example : parseConfigJson sampleDoubles sampleConv .missing = some defaultModes ∧
    (defaultModes.find (ascii "wal_ttl") = some false ∧ defaultModes.find (ascii "port") = none ∧ defaultModes.find (ascii "rocksdb_db_options") = some true) ∧
    Means sampleDoubles sampleConv sampleTexts false (ascii "int32") (ascii "86400") (.int 86400) ∧
    Means sampleDoubles sampleConv sampleTexts true (ascii "string") (ascii "{\"max\": 4, \"k\": \"v\"}") (.map [(ascii "max", ascii "4"), (ascii "k", ascii "v")]) := by
  refine ⟨rfl, by decide +kernel, .int (by decide +kernel) (by decide +kernel), .map (l := [(ascii "max", .int 4), (ascii "k", .str (ascii "v"))]) ?_ ?_ (by decide +kernel)⟩
  · rw [show ascii "{\"max\": 4, \"k\": \"v\"}" = [123, 34, 109, 97, 120, 34, 58, 32, 52, 44, 32, 34, 107, 34, 58, 32, 34, 118, 34, 125] by decide +kernel, show ascii "max" = [109, 97, 120] by decide +kernel, show ascii "k" = [107] by decide +kernel, show ascii "v" = [118] by decide +kernel]
    rfl
  · exact .cons ⟨rfl, (show ascii "4" = intDec 4 by decide +kernel) ▸ .int 4⟩ (.cons ⟨rfl, .str _⟩ .nil)

example : Listed sampleConv (.obj [(ascii "MUTABLE", .arr [.str (ascii "v"), .str (ascii "port")])]) (ascii "MUTABLE") [ascii "v", ascii "port"] ∧
    Listed sampleConv (.obj [(ascii "MUTABLE", .arr [.str (ascii "v"), .str (ascii "port")])]) (ascii "NESTED") [] := by
  refine ⟨Or.inl ⟨_, ⟨_, rfl, by simp⟩, .cons (.str _) (.cons (.str _) .nil)⟩, Or.inr ⟨rfl, ?_⟩⟩
  rintro l ⟨m, hm, hf⟩
  simp only [Dyn.obj.injEq] at hm; subst hm
  have : (ascii "MUTABLE" == ascii "NESTED") = false := by decide +kernel
  simp [this] at hf

end Conf
end Nebula
