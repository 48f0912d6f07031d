import Verif.Http.Model
import Verif.Json.Lemmas
import Verif.FullText.Props
import Verif.Process.Props
/-! # Requests through curl and hdfs (C109).  The shell is that of Verif/FullText/Spec.lean. -/
namespace Nebula
namespace Http
open Json
open FullText (sh shellArgs PlainByte QuotableByte)

/-- Words of a text followed by a space and another text. -/
theorem sh_append : ∀ (a : Bytes) (q : FullText.Quote) (cur : Option Bytes) (ws : List Bytes) (b : Bytes), sh q cur a = some ws →
    sh q cur (a ++ 32 :: b) = (sh .plain none b).map (ws ++ ·)
  | [], q, cur, ws, b, h => by
    cases q <;> simp [sh] at h
    subst h
    exact FullText.sh_space cur b
  | c :: a, q, cur, ws, b, h => by
    have ih := sh_append a
    rw [List.cons_append]
    cases q <;> simp only [sh] at h ⊢
    all_goals (repeat' split at h)
    all_goals first
      | (simp at h; done)
      | skip
    all_goals simp only [*, if_true, if_false, or_true, true_or, reduceCtorEq, or_self, Bool.false_eq_true] at h ⊢
    all_goals first
      | exact ih _ _ _ b h
      | (obtain ⟨w, hw, rfl⟩ := Option.map_eq_some_iff.1 h
         rw [ih _ _ _ b hw, Option.map_map]; congr 1; funext x; simp)

theorem ascii_quote (s : Bytes) : ascii " \"" ++ s ++ ascii "\"" = 32 :: 34 :: (s ++ [34]) := by
  rw [show ascii " \"" = [32, 34] by decide +kernel, show ascii "\"" = [34] by decide +kernel]; rfl

theorem cstr_quotable {s : Bytes} (h : ∀ b ∈ s, QuotableByte b) : cstr s = s :=
  cstr_of_no_nul fun h0 => FullText.quotable_ne_zero (h 0 h0) rfl

theorem options_command {front options path : Bytes} {fs ws : List Bytes} (hf : sh .plain none front = some fs) (ho : sh .plain none options = some ws)
    (hp : ∀ b ∈ path, QuotableByte b) : shellArgs (front ++ 32 :: cstr options ++ ascii " \"" ++ cstr path ++ ascii "\"") = some (fs ++ (ws ++ [path])) := by
  apply FullText.shellArgs_of_sh
  rw [cstr_of_no_nul (FullText.sh_nul _ _ _ _ ho), cstr_quotable hp,
    show front ++ 32 :: options ++ ascii " \"" ++ path ++ ascii "\"" = front ++ 32 :: (options ++ (ascii " \"" ++ path ++ ascii "\"")) by simp, ascii_quote,
    sh_append _ _ _ _ _ hf, sh_append _ _ _ _ _ ho, FullText.sh_dword_end _ hp]
  rfl

/-- **C109 (requests with options).** If the options are words for the shell and the address has nothing that has a meaning between double quotes, curl gets
exactly the words of the options and then the address. -/
theorem C109_options {path options : Bytes} {ws : List Bytes} (ho : sh .plain none options = some ws) (hp : ∀ b ∈ path, QuotableByte b) :
    shellArgs (getCommand path options) = some ([ascii "/usr/bin/curl"] ++ (ws ++ [path])) ∧
    shellArgs (postCommand path options) = some ([ascii "/usr/bin/curl", ascii "-X", ascii "POST"] ++ (ws ++ [path])) ∧
    shellArgs (putCommand path options) = some ([ascii "/usr/bin/curl", ascii "-X", ascii "PUT"] ++ (ws ++ [path])) := by
  refine ⟨?_, ?_, ?_⟩
  · rw [← options_command (front := ascii "/usr/bin/curl") (by decide +kernel) ho hp, getCommand,
      show ascii "/usr/bin/curl " = ascii "/usr/bin/curl" ++ [32] by decide +kernel]; simp
  · rw [← options_command (front := ascii "/usr/bin/curl -X POST") (by decide +kernel) ho hp, postCommand,
      show ascii "/usr/bin/curl -X POST " = ascii "/usr/bin/curl -X POST" ++ [32] by decide +kernel]; simp
  · rw [← options_command (front := ascii "/usr/bin/curl -X PUT") (by decide +kernel) ho hp, putCommand,
      show ascii "/usr/bin/curl -X PUT " = ascii "/usr/bin/curl -X PUT" ++ [32] by decide +kernel]; simp

/-! ## JSON data -/

mutual
/-- No string and no key has a single quote. -/
def NoQuote {F : Type} : Dyn F → Prop
  | .str s => (39 : UInt8) ∉ s
  | .arr l => NoQuoteList l
  | .obj l => NoQuoteEntries l
  | _ => True
/-- `NoQuote` for every element. -/
def NoQuoteList {F : Type} : List (Dyn F) → Prop
  | [] => True
  | j :: l => NoQuote j ∧ NoQuoteList l
/-- `NoQuote` for every key and value. -/
def NoQuoteEntries {F : Type} : List (Bytes × Dyn F) → Prop
  | [] => True
  | (k, j) :: l => (39 : UInt8) ∉ k ∧ NoQuote j ∧ NoQuoteEntries l
end

/-- A byte that can be written between single quotes. -/
def Clean (c : UInt8) : Prop := c ≠ 0 ∧ c ≠ 39

instance (c : UInt8) : Decidable (Clean c) := by unfold Clean; infer_instance

theorem esc_clean : ∀ c : UInt8, c ≠ 39 → ∀ b ∈ esc c, Clean b := FullText.allBytes (P := fun c => c ≠ 39 → ∀ b ∈ esc c, Clean b) (by decide +kernel)

theorem quote_clean {s : Bytes} (h : (39 : UInt8) ∉ s) : ∀ b ∈ quote s, Clean b := by
  intro b hb
  simp only [quote, List.mem_cons, List.mem_append, List.mem_flatMap, List.not_mem_nil, or_false] at hb
  rcases hb with rfl | ⟨c, hc, hb⟩ | rfl
  · decide
  · exact esc_clean c (fun e => h (e ▸ hc)) b hb
  · decide

theorem isDigit_clean : ∀ c : UInt8, isDigit c = true → Clean c := FullText.allBytes (P := fun c => isDigit c = true → Clean c) (by decide +kernel)

theorem intDec_clean (i : Int) : ∀ b ∈ intDec i, Clean b := by
  intro b hb
  unfold intDec at hb
  split at hb
  · rcases List.mem_cons.1 hb with rfl | hb
    · decide
    · exact isDigit_clean b (natDec_digits _ b hb)
  · exact isDigit_clean b (natDec_digits _ b hb)

theorem real_clean {t : Bytes} (h : RealText t) : ∀ b ∈ t, Clean b := by
  obtain ⟨sign, ds, frac, ex, rfl, h1, _, h3, h4, h5, _⟩ := h.shape
  intro b hb
  simp only [List.mem_append] at hb
  rcases hb with hb | hb | hb | hb
  · rcases h1 with rfl | rfl
    · simp at hb
    · simp at hb; subst hb; decide
  · exact isDigit_clean b (h3 b hb)
  · rcases h4 with rfl | ⟨fs, rfl, hf⟩
    · simp at hb
    · rcases List.mem_cons.1 hb with rfl | hb
      · decide
      · exact isDigit_clean b (hf b hb)
  · rcases h5 with rfl | ⟨e, s, xs, rfl, he, hs, _, hx⟩
    · simp at hb
    · rcases List.mem_cons.1 hb with rfl | hb
      · rcases he with rfl | rfl <;> decide
      · rcases List.mem_append.1 hb with hb | hb
        · rcases hs with rfl | rfl | rfl
          · simp at hb
          · simp at hb; subst hb; decide
          · simp at hb; subst hb; decide
        · exact isDigit_clean b (hx b hb)

theorem commas_clean : ∀ l : List Bytes, (∀ e ∈ l, ∀ b ∈ e, Clean b) → ∀ b ∈ commas [] l, Clean b
  | [], _, b, hb => by simp [commas] at hb
  | [e], h, b, hb => h e (by simp) b (by simpa [commas] using hb)
  | e :: f :: l, h, b, hb => by
    simp only [commas, List.mem_append, List.mem_cons, List.nil_append] at hb
    rcases hb with hb | rfl | hb
    · exact h e (by simp) b hb
    · decide
    · exact commas_clean (f :: l) (fun x hx => h x (by simp [hx])) b hb

theorem bracket_clean {o c : UInt8} (ho : Clean o) (hc : Clean c) {es : List Bytes} (h : ∀ e ∈ es, ∀ b ∈ e, Clean b) : ∀ b ∈ bracket o c none es, Clean b := by
  intro b hb
  unfold bracket at hb
  split at hb
  · simp at hb; rcases hb with rfl | rfl <;> assumption
  · simp only [newline, deeper, Option.map_none, List.nil_append, List.mem_cons, List.mem_append, List.not_mem_nil, or_false] at hb
    rcases hb with rfl | hb | rfl
    · exact ho
    · exact commas_clean es h b hb
    · exact hc

section
variable {F : Type} (D : Doubles F) {ord : List Bytes → List Bytes} (hord : ∀ l, (ord l).Perm l)
include hord
mutual
theorem dump_clean : ∀ (j : Dyn F) (e : Bytes), Fine D j → NoQuote j → dump D ord none j = some e → ∀ b ∈ e, Clean b
  | .null, e, _, _, h => by simp only [dump, Option.some.injEq] at h; subst h; decide +kernel
  | .bool b, e, _, _, h => by simp only [dump, Option.some.injEq] at h; subst h; cases b <;> decide +kernel
  | .int i, e, _, _, h => by simp only [dump, Option.some.injEq] at h; subst h; exact intDec_clean i
  | .dbl d, e, hf, _, h => by
    simp only [dump] at h
    split at h
    · simp only [Option.some.injEq] at h; subst h
      simp only [Fine] at hf
      exact real_clean hf.1
    · cases h
  | .str s, e, _, hq, h => by simp only [dump, Option.some.injEq] at h; subst h; simp only [NoQuote] at hq; exact quote_clean hq
  | .arr l, e, hf, hq, h => by
    simp only [dump] at h
    obtain ⟨es, h1, rfl⟩ := Option.map_eq_some_iff.1 h
    simp only [Fine] at hf
    simp only [NoQuote] at hq
    exact bracket_clean (by decide) (by decide) (dumpList_clean l es hf hq h1)
  | .obj l, e, hf, hq, h => by
    simp only [dump] at h
    obtain ⟨es, h1, rfl⟩ := Option.map_eq_some_iff.1 h
    simp only [Fine] at hf
    simp only [NoQuote] at hq
    exact bracket_clean (by decide) (by decide) fun x hx => dumpEntries_clean l es hf.2 hq h1 x ((hord es).mem_iff.1 hx)
theorem dumpList_clean : ∀ (l : List (Dyn F)) (es : List Bytes), FineList D l → NoQuoteList l → dumpList D ord none l = some es → ∀ e ∈ es, ∀ b ∈ e, Clean b
  | [], es, _, _, h => by simp only [dumpList, Option.some.injEq] at h; subst h; simp
  | j :: l, es, hf, hq, h => by
    simp only [dumpList] at h
    obtain ⟨e, h1, h2⟩ := Option.bind_eq_some_iff.1 h
    obtain ⟨es', h3, rfl⟩ := Option.map_eq_some_iff.1 h2
    simp only [FineList] at hf
    simp only [NoQuoteList] at hq
    intro x hx
    rcases List.mem_cons.1 hx with rfl | hx
    · exact dump_clean j x hf.1 hq.1 h1
    · exact dumpList_clean l es' hf.2 hq.2 h3 x hx
theorem dumpEntries_clean : ∀ (l : List (Bytes × Dyn F)) (es : List Bytes), FineEntries D l → NoQuoteEntries l → dumpEntries D ord none l = some es →
    ∀ e ∈ es, ∀ b ∈ e, Clean b
  | [], es, _, _, h => by simp only [dumpEntries, Option.some.injEq] at h; subst h; simp
  | (k, j) :: l, es, hf, hq, h => by
    simp only [dumpEntries] at h
    obtain ⟨e, h1, h2⟩ := Option.bind_eq_some_iff.1 h
    obtain ⟨es', h3, rfl⟩ := Option.map_eq_some_iff.1 h2
    simp only [FineEntries] at hf
    simp only [NoQuoteEntries] at hq
    intro x hx
    rcases List.mem_cons.1 hx with rfl | hx
    · intro b hb
      simp only [List.mem_append, colon, List.mem_cons, List.not_mem_nil, or_false] at hb
      rcases hb with hb | rfl | hb
      · exact quote_clean hq.1 b hb
      · decide
      · exact dump_clean j e hf.1 hq.2.1 h1 b hb
    · exact dumpEntries_clean l es' hf.2 hq.2.2 h3 x hx
end
end

/-- **C109 (requests with data).** If the address has nothing that has a meaning between double quotes and no string of the data has a single quote, curl gets the
method, the address and, unless the data is empty, one argument that is the data: reading it as JSON gives the data. -/
theorem C109_data {F : Type} (D : Doubles F) {ord : List Bytes → List Bytes} (hord : ∀ l, (ord l).Perm l) {path method : Bytes} {data : Dyn F} {cmd : Bytes}
    (hp : ∀ b ∈ path, QuotableByte b) (hm : method ≠ [] ∧ ∀ b ∈ method, PlainByte b) (hf : Fine D data) (hd : depth data ≤ maxDepth) (hq : NoQuote data)
    (hc : sendCommand D ord path data method = some cmd) :
    (dynEmpty data = some true → shellArgs cmd = some [ascii "curl", ascii "-X", method, ascii "-s", path]) ∧
    (dynEmpty data = some false → ∃ json v, shellArgs cmd =
        some [ascii "curl", ascii "-X", method, ascii "-H", ascii "Content-Type: application/json", ascii "-d" ++ json, ascii "-s", path] ∧
      parse D json = some v ∧ Same data v) := by
  have hcm : cstr method = method := cstr_of_no_nul fun h0 => FullText.plain_ne_zero (hm.2 0 h0) rfl
  have hfront : ∀ r, sh .plain none (ascii "curl -X " ++ method ++ 32 :: r) = (sh .plain none r).map ([ascii "curl", ascii "-X", method] ++ ·) := by
    intro r
    rw [show ascii "curl -X " ++ method ++ 32 :: r = ascii "curl" ++ 32 :: (ascii "-X" ++ 32 :: (method ++ 32 :: r)) by simp [ascii],
      FullText.sh_word _ (by decide +kernel) (by decide +kernel), FullText.sh_word _ (by decide +kernel) (by decide +kernel), FullText.sh_word _ hm.2 hm.1, Option.map_map,
      Option.map_map]
    congr 1
  have htail : sh .plain none (ascii "-s" ++ 32 :: 34 :: (path ++ [34])) = some [ascii "-s", path] := by
    rw [FullText.sh_word _ (by decide +kernel) (by decide +kernel), FullText.sh_dword_end _ hp]; rfl
  unfold sendCommand at hc
  rw [hcm, cstr_quotable hp] at hc
  constructor
  · intro he
    rw [he] at hc
    simp only [Option.bind_some, if_true, Option.some.injEq] at hc
    subst hc
    apply FullText.shellArgs_of_sh
    rw [show ascii "curl -X " ++ method ++ ascii " -s \"" ++ path ++ ascii "\"" = ascii "curl -X " ++ method ++ 32 :: (ascii "-s" ++ 32 :: 34 :: (path ++ [34])) by
      simp [ascii], hfront, htail]
    rfl
  · intro he
    rw [he] at hc
    simp only [Option.bind_some, Bool.false_eq_true, if_false] at hc
    obtain ⟨json, hj, rfl⟩ := Option.map_eq_some_iff.1 hc
    obtain ⟨v, hv, hs⟩ := parse_dump D hord data none json hf hd hj
    have hcl := dump_clean D hord data json hf hq hj
    have h0 : (0 : UInt8) ∉ json := fun h => (hcl 0 h).1 rfl
    have h39 : (39 : UInt8) ∉ json := fun h => (hcl 39 h).2 rfl
    refine ⟨json, v, ?_, hv, hs⟩
    apply FullText.shellArgs_of_sh
    rw [cstr_of_no_nul h0]
    rw [show ascii "curl -X " ++ method ++ ascii " -H \"Content-Type: application/json\" -d'" ++ json ++ ascii "' -s \"" ++ path ++ ascii "\"" =
        ascii "curl -X " ++ method ++ 32 :: (ascii "-H" ++ 32 :: (34 :: (ascii "Content-Type: application/json" ++ 34 :: 32 ::
          (ascii "-d" ++ 39 :: (json ++ 39 :: 32 :: (ascii "-s" ++ 32 :: 34 :: (path ++ [34]))))))) by simp [ascii], hfront,
      FullText.sh_word _ (by decide +kernel) (by decide +kernel), FullText.sh_dword _ (by decide +kernel), FullText.sh_plain _ (by decide +kernel) (by decide +kernel)]
    have e1 : ∀ (w r : Bytes), sh .plain (some w) (39 :: r) = sh .single (some w) r := by intro w r; simp [sh]
    have e2 : ∀ (w r : Bytes), sh .single (some w) (39 :: r) = sh .plain (some w) r := by intro w r; simp [sh]
    rw [e1, FullText.sh_single_raw json h0 h39, e2, FullText.sh_space, htail]
    simp

/-- **C109 (methods).** Data that are not empty are posted with POST and put with PUT. -/
theorem C109_methods {F : Type} (D : Doubles F) {ord : List Bytes → List Bytes} (hord : ∀ l, (ord l).Perm l) {path : Bytes} {data : Dyn F}
    (hp : ∀ b ∈ path, QuotableByte b) (hf : Fine D data) (hd : depth data ≤ maxDepth) (hq : NoQuote data) (he : dynEmpty data = some false) :
    (∀ cmd, postData D ord path data = some cmd → ∃ json v, shellArgs cmd =
        some [ascii "curl", ascii "-X", ascii "POST", ascii "-H", ascii "Content-Type: application/json", ascii "-d" ++ json, ascii "-s", path] ∧ parse D json = some v ∧ Same data v) ∧
    ∀ cmd, putData D ord path data = some cmd → ∃ json v, shellArgs cmd =
        some [ascii "curl", ascii "-X", ascii "PUT", ascii "-H", ascii "Content-Type: application/json", ascii "-d" ++ json, ascii "-s", path] ∧ parse D json = some v ∧ Same data v :=
  ⟨fun _ hc => (C109_data D hord hp ⟨by decide +kernel, by decide +kernel⟩ hf hd hq hc).2 he,
   fun _ hc => (C109_data D hord hp ⟨by decide +kernel, by decide +kernel⟩ hf hd hq hc).2 he⟩

/-- **C109 (maps of strings).** A map of strings whose keys and values have no single quote meets what `C109_data` asks of the data. -/
theorem C109_map {F : Type} (D : Doubles F) (header : List (Bytes × Bytes)) (hk : (header.map (·.1)).Nodup) (h : ∀ p ∈ header, (39 : UInt8) ∉ p.1 ∧ (39 : UInt8) ∉ p.2) :
    Fine D (mapData (F := F) header) ∧ depth (mapData (F := F) header) ≤ maxDepth ∧ NoQuote (mapData (F := F) header) ∧
    dynEmpty (mapData (F := F) header) = some header.isEmpty := by
  refine ⟨?_, ?_, ?_, ?_⟩
  · simp only [mapData, Fine, List.map_map, Function.comp_def]
    refine ⟨hk, ?_⟩
    clear hk h
    induction header with
    | nil => simp [FineEntries]
    | cons p l ih => simp only [List.map_cons, FineEntries, Fine, true_and]; exact ih
  · have : depthEntries (header.map fun p => (p.1, (Dyn.str p.2 : Dyn F))) ≤ 1 := by
      clear hk h
      induction header with
      | nil => simp [depthEntries]
      | cons p l ih => simp only [List.map_cons, depthEntries, depth]; omega
    have hm : 2 ≤ maxDepth := by decide
    simp only [mapData, depth]
    omega
  · simp only [mapData, NoQuote]
    clear hk
    induction header with
    | nil => simp [NoQuoteEntries]
    | cons p l ih =>
      simp only [List.map_cons, NoQuoteEntries, NoQuote]
      exact ⟨(h p (by simp)).1, (h p (by simp)).2, ih fun q hq => h q (by simp [hq])⟩
  · cases header <;> rfl

/-- **C109 (data with a quote, violated).** A single quote in a value ends the argument: the rest of the value is shell text, here a command of its own. -/
theorem C109_data_violated {F : Type} (D : Doubles F) : ∃ (header : List (Bytes × Bytes)) (cmd : Bytes),
    postData D id (ascii "http://h/p") (mapData (F := F) header) = some cmd ∧ shellArgs cmd = none ∧
    cmd = ascii "curl -X POST -H \"Content-Type: application/json\" -d'{\"k\":\"'" ++ ascii ";id;" ++ ascii "'\"}' -s \"http://h/p\"" := by
  refine ⟨[(ascii "k", ascii "';id;'")], _, ?_, ?_, rfl⟩
  · simp only [postData, sendCommand, mapData, dynEmpty, List.map_cons, List.map_nil, List.isEmpty_cons, Option.bind_some, Bool.false_eq_true, if_false, dump, dumpEntries,
      deeper, Option.map_none, Option.map_some, id]
    congr 1
  · decide +kernel

/-! ## hdfs -/

/-- **C109 (hdfs).** If host and paths are not empty and have nothing that means something to a shell, the commands name exactly that file. -/
theorem C109_hdfs {host path : Bytes} (port : Int) (hh : ∀ b ∈ host, PlainByte b) (hp : ∀ b ∈ path, PlainByte b) :
    shellArgs (lsCommand host port path) = some [ascii "hdfs", ascii "dfs", ascii "-ls", ascii "hdfs://" ++ host ++ ascii ":" ++ intDec port ++ path] ∧
    ∀ loc : Bytes, loc ≠ [] → (∀ b ∈ loc, PlainByte b) →
      shellArgs (copyCommand host port path loc) =
        some [ascii "hdfs", ascii "dfs", ascii "-copyToLocal", ascii "hdfs://" ++ host ++ ascii ":" ++ intDec port ++ path, loc] := by
  have hz : ∀ {s : Bytes}, (∀ b ∈ s, PlainByte b) → cstr s = s := fun h => cstr_of_no_nul fun h0 => FullText.plain_ne_zero (h 0 h0) rfl
  have hi : ∀ b ∈ intDec port, PlainByte b := by
    intro b hb
    have hdig : ∀ c : UInt8, isDigit c = true → PlainByte c := FullText.allBytes (P := fun c => isDigit c = true → PlainByte c) (by decide +kernel)
    unfold intDec at hb
    split at hb
    · rcases List.mem_cons.1 hb with rfl | hb
      · decide +kernel
      · exact hdig b (natDec_digits _ b hb)
    · exact hdig b (natDec_digits _ b hb)
  have hu : ∀ b ∈ ascii "hdfs://" ++ host ++ ascii ":" ++ intDec port ++ path, PlainByte b := by
    intro b hb
    simp only [List.mem_append] at hb
    rcases hb with (((hb | hb) | hb) | hb) | hb
    · revert hb; revert b; decide +kernel
    · exact hh b hb
    · revert hb; revert b; decide +kernel
    · exact hi b hb
    · exact hp b hb
  have hune : ascii "hdfs://" ++ host ++ ascii ":" ++ intDec port ++ path ≠ [] := by simp [ascii]
  constructor
  · apply FullText.shellArgs_of_sh
    rw [lsCommand, hz hh, hz hp, show ascii "hdfs dfs -ls hdfs://" ++ host ++ ascii ":" ++ intDec port ++ path =
        ascii "hdfs" ++ 32 :: (ascii "dfs" ++ 32 :: (ascii "-ls" ++ 32 :: ((ascii "hdfs://" ++ host ++ ascii ":" ++ intDec port ++ path) ++ []))) by simp [ascii],
      FullText.sh_word _ (by decide +kernel) (by decide +kernel), FullText.sh_word _ (by decide +kernel) (by decide +kernel),
      FullText.sh_word _ (by decide +kernel) (by decide +kernel), FullText.sh_plain _ hu hune, FullText.sh_end]
    rfl
  · intro loc hne hl
    apply FullText.shellArgs_of_sh
    rw [copyCommand, hz hh, hz hp, hz hl, show ascii "hdfs dfs -copyToLocal hdfs://" ++ host ++ ascii ":" ++ intDec port ++ path ++ ascii " " ++ loc =
        ascii "hdfs" ++ 32 :: (ascii "dfs" ++ 32 :: (ascii "-copyToLocal" ++ 32 :: ((ascii "hdfs://" ++ host ++ ascii ":" ++ intDec port ++ path) ++ 32 :: (loc ++ [])))) by
        simp [ascii],
      FullText.sh_word _ (by decide +kernel) (by decide +kernel), FullText.sh_word _ (by decide +kernel) (by decide +kernel),
      FullText.sh_word _ (by decide +kernel) (by decide +kernel), FullText.sh_word _ hu hune, FullText.sh_plain _ hl hne, FullText.sh_end]
    rfl

/-- **C109 (hdfs, violated).** A path with a space is two arguments. -/
theorem C109_hdfs_violated : shellArgs (lsCommand (ascii "h") 9000 (ascii "/a b")) = some [ascii "hdfs", ascii "dfs", ascii "-ls", ascii "hdfs://h:9000/a", ascii "b"] := by
  decide +kernel

/-- **C109 (answers).** The answer to a request is the whole output of the command. -/
theorem C109_answer (run : Bytes → Option Process.Pipe) (cmd : Bytes) (p : Process.Pipe) (h : run cmd = some p) :
    request run cmd = if p.fails then none else some (p.buf ++ p.chunks.flatten) := by
  rw [request, h, Process.C108_output]

/-- **C109 (failed requests, violated).** curl with `-s` that cannot connect writes nothing: the request succeeds with an empty answer. -/
theorem C109_failed_violated (run : Bytes → Option Process.Pipe) (cmd : Bytes) (h : run cmd = some ⟨[], [], false, 7⟩) : request run cmd = some [] := by
  rw [C109_answer run cmd _ h]; rfl

/-- The hypotheses can be met. -/
example : sh .plain none (ascii "-G -H \"X: y\"") = some [ascii "-G", ascii "-H", ascii "X: y"] ∧ (∀ b ∈ ascii "http://h:12000/set?a=b&c=d", QuotableByte b) ∧
    shellArgs (getCommand (ascii "http://h:12000/set?a=b&c=d") (ascii "-G -H \"X: y\"")) =
      some [ascii "/usr/bin/curl", ascii "-G", ascii "-H", ascii "X: y", ascii "http://h:12000/set?a=b&c=d"] ∧
    (∀ b ∈ ascii "/user/data_1.sst", PlainByte b) := by
  refine ⟨by decide +kernel, by decide +kernel, by decide +kernel, by decide +kernel⟩

example {F : Type} (D : Doubles F) : ∃ cmd, postData D id (ascii "http://h/p") (mapData (F := F) [(ascii "max", ascii "1 \"2\"")]) = some cmd :=
  ⟨_, rfl⟩

end Http
end Nebula
