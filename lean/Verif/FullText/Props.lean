import Verif.FullText.Spec
/-! # C60, C75, C76: the full-text plugin -/
namespace Nebula
namespace FullText

/-! ## The reader -/

theorem sh_plain (s : Bytes) (h : ∀ b ∈ s, PlainByte b) (hs : s ≠ []) :
    ∀ cur r, sh .plain cur (s ++ r) = sh .plain (some (cur.getD [] ++ s)) r := by
  induction s with
  | nil => exact absurd rfl hs
  | cons c s ih =>
    intro cur r
    obtain ⟨h1, h2, h3, h4, h5, h6⟩ := h c (by simp)
    have hstep : sh .plain cur (c :: s ++ r) = sh .plain (some (cur.getD [] ++ [c])) (s ++ r) := by
      show sh .plain cur (c :: (s ++ r)) = _
      simp [sh, h1, h2, h3, h4, h5, h6]
    rw [hstep]
    by_cases hs' : s = []
    · subst hs'; rfl
    · rw [ih (fun b hb => h b (by simp [hb])) hs']
      simp

theorem sh_double (s : Bytes) (h : ∀ b ∈ s, QuotableByte b) :
    ∀ w r, sh .double (some w) (s ++ 34 :: r) = sh .plain (some (w ++ s)) r := by
  induction s with
  | nil => intro w r; simp [sh]
  | cons c s ih =>
    intro w r
    obtain ⟨h1, h2, h3⟩ := h c (by simp)
    have : sh .double (some w) (c :: s ++ 34 :: r) = sh .double (some (w ++ [c])) (s ++ 34 :: r) := by
      show sh .double (some w) (c :: (s ++ 34 :: r)) = _
      simp [sh, h1, h2, h3]
    rw [this, ih (fun b hb => h b (by simp [hb]))]
    simp

theorem sh_single (s : Bytes) (h : (0 : UInt8) ∉ s) :
    ∀ w r, sh .single (some w) (normalized s ++ 39 :: r) = sh .plain (some (w ++ s)) r := by
  induction s with
  | nil => intro w r; simp [normalized, sh]
  | cons c s ih =>
    intro w r
    have h0 : c ≠ 0 := by intro e; apply h; simp [e]
    have hs : (0 : UInt8) ∉ s := fun e => h (by simp [e])
    have key : sh .single (some w) (normalized (c :: s) ++ 39 :: r) =
        sh .single (some (w ++ [c])) (normalized s ++ 39 :: r) := by
      by_cases hc : c = 39
      · subst hc
        show sh .single (some w) (39 :: 92 :: 39 :: 39 :: (normalized s ++ 39 :: r)) = _
        simp [sh]
      · have : normalized (c :: s) ++ 39 :: r = c :: (normalized s ++ 39 :: r) := by simp [normalized, hc]
        rw [this]
        simp [sh, hc, h0]
    rw [key, ih hs]
    simp

/-- Text between single quotes without quotes in it. -/
theorem sh_single_raw (s : Bytes) (h : (0 : UInt8) ∉ s) (hq : (39 : UInt8) ∉ s) :
    ∀ w r, sh .single (some w) (s ++ r) = sh .single (some (w ++ s)) r := by
  induction s with
  | nil => intro w r; simp
  | cons c s ih =>
    intro w r
    have h0 : c ≠ 0 := by intro e; apply h; simp [e]
    have h1 : c ≠ 39 := by intro e; apply hq; simp [e]
    show sh .single (some w) (c :: (s ++ r)) = _
    have : sh .single (some w) (c :: (s ++ r)) = sh .single (some (w ++ [c])) (s ++ r) := by simp [sh, h0, h1]
    rw [this, ih (fun e => h (by simp [e])) (fun e => hq (by simp [e]))]
    simp

theorem sh_single_norm (s : Bytes) (h : (0 : UInt8) ∉ s) :
    ∀ w r, sh .single (some w) (normalized s ++ r) = sh .single (some (w ++ s)) r := by
  induction s with
  | nil => intro w r; simp [normalized]
  | cons c s ih =>
    intro w r
    have h0 : c ≠ 0 := by intro e; apply h; simp [e]
    have hs : (0 : UInt8) ∉ s := fun e => h (by simp [e])
    have key : sh .single (some w) (normalized (c :: s) ++ r) =
        sh .single (some (w ++ [c])) (normalized s ++ r) := by
      by_cases hc : c = 39
      · subst hc
        show sh .single (some w) (39 :: 92 :: 39 :: 39 :: (normalized s ++ r)) = _
        simp [sh]
      · have : normalized (c :: s) ++ r = c :: (normalized s ++ r) := by simp [normalized, hc]
        rw [this]
        simp [sh, hc, h0]
    rw [key, ih hs]
    simp

theorem sh_space (cur : Option Bytes) (r : Bytes) :
    sh .plain cur (32 :: r) = (sh .plain none r).map (cur.toList ++ ·) := by simp [sh]

theorem sh_end (w : Bytes) : sh .plain (some w) [] = some [w] := by simp [sh]

/-- A plain word and a space. -/
theorem sh_word (s : Bytes) (h : ∀ b ∈ s, PlainByte b) (hs : s ≠ []) (r : Bytes) :
    sh .plain none (s ++ 32 :: r) = (sh .plain none r).map (s :: ·) := by
  rw [sh_plain s h hs, sh_space]; simp

/-- A word in double quotes and a space. -/
theorem sh_dword (s : Bytes) (h : ∀ b ∈ s, QuotableByte b) (r : Bytes) :
    sh .plain none (34 :: (s ++ 34 :: 32 :: r)) = (sh .plain none r).map (s :: ·) := by
  have : sh .plain none (34 :: (s ++ 34 :: 32 :: r)) = sh .double (some []) (s ++ 34 :: 32 :: r) := by simp [sh]
  rw [this, sh_double s h, sh_space]; simp

/-- A word in double quotes at the end. -/
theorem sh_dword_end (s : Bytes) (h : ∀ b ∈ s, QuotableByte b) :
    sh .plain none (34 :: (s ++ [34])) = some [s] := by
  have : sh .plain none (34 :: (s ++ [34])) = sh .double (some []) (s ++ [34]) := by simp [sh]
  rw [this, sh_double s h, sh_end]; simp

instance (c : UInt8) : Decidable (PlainByte c) := by unfold PlainByte; infer_instance
instance (c : UInt8) : Decidable (QuotableByte c) := by unfold QuotableByte; infer_instance

theorem plain_ne_zero {c : UInt8} (h : PlainByte c) : c ≠ 0 := by
  rintro rfl; exact absurd h.2.2.2.2.2 (by decide)
theorem quotable_ne_zero {c : UInt8} (h : QuotableByte c) : c ≠ 0 := by
  rintro rfl; exact absurd h.2.2 (by decide)
theorem allBytes {P : UInt8 → Prop} [DecidablePred P] (h : (List.range 256).all (fun n => decide (P (UInt8.ofNat n))) = true) (c : UInt8) : P c := by
  have := List.all_eq_true.1 h c.toNat (List.mem_range.2 c.toNat_lt)
  simpa using this

theorem quotable_of_plain {c : UInt8} : PlainByte c → QuotableByte c :=
  allBytes (P := fun c => PlainByte c → QuotableByte c) (by decide +kernel) c

theorem digit_plain (c : UInt8) : isDigit c = true → PlainByte c :=
  allBytes (P := fun c => isDigit c = true → PlainByte c) (by decide +kernel) c

theorem intDec_plain (i : Int) : ∀ b ∈ intDec i, PlainByte b := by
  intro b hb
  unfold intDec at hb
  split at hb
  · rcases List.mem_cons.1 hb with rfl | hb
    · decide
    · exact digit_plain b (natDec_digits _ b hb)
  · exact digit_plain b (natDec_digits _ b hb)

theorem hex_plain (c : UInt8) : ((48 ≤ c ∧ c ≤ 57) ∨ (97 ≤ c ∧ c ≤ 102)) → PlainByte c :=
  allBytes (P := fun c => ((48 ≤ c ∧ c ≤ 57) ∨ (97 ≤ c ∧ c ≤ 102)) → PlainByte c) (by decide +kernel) c

/-! ## JSON text has no NUL -/

theorem jsonEsc_nul (c : UInt8) : (0 : UInt8) ∉ jsonEsc c :=
  allBytes (P := fun c => (0 : UInt8) ∉ jsonEsc c) (by decide +kernel) c

theorem jsonStr_nul (s : Bytes) : (0 : UInt8) ∉ jsonStr s := by
  intro h
  simp only [jsonStr, List.mem_cons, List.mem_append, List.mem_flatMap, List.not_mem_nil, or_false] at h
  rcases h with h | ⟨c, _, h⟩ | h
  · exact absurd h (by decide)
  · exact jsonEsc_nul c h
  · exact absurd h (by decide)

theorem intDec_nul (i : Int) : (0 : UInt8) ∉ intDec i := fun h => plain_ne_zero (intDec_plain i _ h) rfl

theorem commas_nul : ∀ l : List Bytes, (∀ e ∈ l, (0 : UInt8) ∉ e) → (0 : UInt8) ∉ commas l
  | [], _ => by simp [commas]
  | [e], h => by simpa [commas] using h e (by simp)
  | e :: f :: l, h => by
    have h1 := h e (by simp)
    have h2 := commas_nul (f :: l) (fun x hx => h x (by simp [hx]))
    simp only [commas, List.mem_append, List.mem_cons, not_or]
    exact ⟨h1, by decide, h2⟩

section
variable {ord : List Bytes → List Bytes} (hord : ∀ l, (ord l).Perm l)
include hord
mutual
theorem toJson_nul : ∀ j : J, (0 : UInt8) ∉ toJson ord j
  | .null => by rw [toJson]; decide
  | .bool b => by cases b <;> (rw [toJson]; decide)
  | .int i => by rw [toJson]; exact intDec_nul i
  | .str s => by rw [toJson]; exact jsonStr_nul s
  | .arr l => by
    rw [toJson]
    have := commas_nul _ (toJsonList_nul l)
    simp only [List.mem_cons, List.mem_append, List.not_mem_nil, not_or]
    exact ⟨by decide, this, by decide, by simp⟩
  | .obj l => by
    rw [toJson]
    have := commas_nul (ord (toJsonEntries ord l)) (fun e he => toJsonEntries_nul l e ((hord _).mem_iff.1 he))
    simp only [List.mem_cons, List.mem_append, List.not_mem_nil, not_or]
    exact ⟨by decide, this, by decide, by simp⟩
theorem toJsonList_nul : ∀ l : List J, ∀ e ∈ toJsonList ord l, (0 : UInt8) ∉ e
  | [], e, h => by simp [toJsonList] at h
  | j :: l, e, h => by
    rw [toJsonList] at h
    rcases List.mem_cons.1 h with rfl | h
    · exact toJson_nul j
    · exact toJsonList_nul l e h
theorem toJsonEntries_nul : ∀ l : List (Bytes × J), ∀ e ∈ toJsonEntries ord l, (0 : UInt8) ∉ e
  | [], e, h => by simp [toJsonEntries] at h
  | (k, j) :: l, e, h => by
    rw [toJsonEntries] at h
    rcases List.mem_cons.1 h with rfl | h
    · have h1 := jsonStr_nul k
      have h2 := toJson_nul j
      simp only [List.mem_append, List.mem_cons, not_or]
      exact ⟨h1, by decide, h2⟩
    · exact toJsonEntries_nul l e h
end
end

theorem sh_nul : ∀ (s : Bytes) (q : Quote) (cur : Option Bytes) (ws : List Bytes), sh q cur s = some ws → (0 : UInt8) ∉ s
  | [], _, _, _, _ => by simp
  | c :: s, q, cur, ws, h => by
    have ih := sh_nul s
    have h0 : c ≠ 0 := by
      rintro rfl
      cases q <;> simp [sh, shellSpecial, dquoteSpecial] at h
    have hs : ∃ q' cur' ws', sh q' cur' s = some ws' := by
      cases q <;> simp only [sh] at h
      all_goals (repeat' split at h)
      all_goals first
        | exact ⟨_, _, _, h⟩
        | (simp at h; done)
        | (obtain ⟨w, hw, _⟩ := Option.map_eq_some_iff.1 h; exact ⟨_, _, _, hw⟩)
    obtain ⟨q', cur', ws', h'⟩ := hs
    have := ih q' cur' ws' h'
    simp only [List.mem_cons, not_or]
    exact ⟨fun e => h0 e.symm, this⟩

theorem shellArgs_of_sh {s : Bytes} {ws : List Bytes} (h : sh .plain none s = some ws) : shellArgs s = some ws := by
  have h0 := sh_nul s _ _ _ h
  rw [shellArgs, cstr_of_no_nul h0, h]

/-! ## The pieces of the commands -/

/-- The part of every command up to the URL. -/
theorem sh_front (ct m : String) (hct : ∀ b ∈ ascii ct, QuotableByte b) (hm : ∀ b ∈ ascii m, PlainByte b)
    (c : Client) (hc : SafeClient c) (path : Bytes) (hp : ∀ b ∈ path, QuotableByte b) (r : Bytes) (ws : List Bytes)
    (hr : ∀ w, sh .plain (some w) r = some (w :: ws)) :
    sh .plain none (curl ++ (ascii " -H \"Content-Type: " ++ ascii ct ++ ascii "; charset=utf-8\"") ++ (ascii " -X" ++ ascii m) ++
      c.toStr ++ path ++ ascii "\"" ++ r) = some (curlArgs ct m c path ws) := by
  obtain ⟨hu, hpw, hh⟩ := hc
  have e1 : ∀ x : Bytes, curl ++ (ascii " -H \"Content-Type: " ++ ascii ct ++ ascii "; charset=utf-8\"") ++ x =
      ascii "/usr/bin/curl" ++ 32 :: (ascii "-H" ++ 32 :: 34 :: ((ascii "Content-Type: " ++ ascii ct ++ ascii "; charset=utf-8") ++ 34 :: x)) := by
    intro x; simp [curl, ascii]
  have hurl : ∀ b ∈ url c path, QuotableByte b := by
    intro b hb
    simp only [url, List.mem_append] at hb
    rcases hb with ((((hb | hb) | hb) | hb) | hb) | hb
    · revert b; decide
    · exact hh b hb
    · revert b; decide
    · exact quotable_of_plain (intDec_plain _ b hb)
    · revert b; decide
    · exact hp b hb
  have hquote : ∀ cur, sh .plain cur (34 :: (url c path ++ 34 :: r)) = some ((cur.getD [] ++ url c path) :: ws) := by
    intro cur
    have : sh .plain cur (34 :: (url c path ++ 34 :: r)) = sh .double (some (cur.getD [])) (url c path ++ 34 :: r) := by simp [sh]
    rw [this, sh_double _ hurl, hr]
  have htail : sh .plain none ((ascii "-X" ++ ascii m) ++ (c.toStr ++ path ++ ascii "\"" ++ r)) =
      some ((ascii "-X" ++ ascii m) :: (credentials c ++ [url c path] ++ ws)) := by
    have hx : ∀ b ∈ ascii "-X" ++ ascii m, PlainByte b := by
      intro b hb
      rcases List.mem_append.1 hb with hb | hb
      · exact (by decide : ∀ b ∈ ascii "-X", PlainByte b) b hb
      · exact hm b hb
    by_cases hue : c.user = []
    · have e : c.toStr ++ path ++ ascii "\"" ++ r = 32 :: (34 :: (url c path ++ 34 :: r)) := by
        simp [Client.toStr, hue, url, ascii]
      rw [e, sh_word _ hx (by simp [ascii]), hquote]
      simp [credentials, hue]
    · have e : c.toStr ++ path ++ ascii "\"" ++ r = 32 :: (ascii "-u" ++ 32 :: ((if c.password = [] then c.user else c.user ++ ascii ":" ++ c.password) ++
          32 :: (34 :: (url c path ++ 34 :: r)))) := by
        by_cases hpe : c.password = [] <;> simp [Client.toStr, hue, url, ascii, hpe]
      rw [e, sh_word _ hx (by simp [ascii]), sh_word _ (by decide) (by simp [ascii]), sh_word, hquote]
      · simp [credentials, hue]
      · intro b hb
        split at hb
        · exact hu b hb
        · simp only [List.mem_append] at hb
          rcases hb with (hb | hb) | hb
          · exact hu b hb
          · revert b; decide
          · exact hpw b hb
      · split
        · exact hue
        · simp [hue]
  have hcty : ∀ b ∈ ascii "Content-Type: " ++ ascii ct ++ ascii "; charset=utf-8", QuotableByte b := by
    intro b hb
    simp only [List.mem_append] at hb
    rcases hb with (hb | hb) | hb
    · revert b; decide
    · exact hct b hb
    · revert b; decide
  have e2 : curl ++ (ascii " -H \"Content-Type: " ++ ascii ct ++ ascii "; charset=utf-8\"") ++ (ascii " -X" ++ ascii m) ++
      c.toStr ++ path ++ ascii "\"" ++ r = ascii "/usr/bin/curl" ++ 32 :: (ascii "-H" ++ 32 :: 34 :: ((ascii "Content-Type: " ++ ascii ct ++ ascii "; charset=utf-8") ++
        34 :: 32 :: ((ascii "-X" ++ ascii m) ++ (c.toStr ++ path ++ ascii "\"" ++ r)))) := by
    have := e1 ((ascii " -X" ++ ascii m) ++ (c.toStr ++ path ++ ascii "\"" ++ r))
    simp only [List.append_assoc] at this ⊢
    rw [this]
    simp [ascii]
  rw [e2, sh_word _ (by decide) (by simp [ascii]), sh_word _ (by decide) (by simp [ascii]), sh_dword _ hcty, htail]
  simp [curlArgs]


/-! ## Document ids -/

/-- A base64 digit as it appears in a document id. -/
def idChar (n : Nat) : UInt8 := if b64Char n = 47 then 95 else b64Char n

theorem idChar_inj {a b : Nat} (ha : a < 64) (hb : b < 64) (h : idChar a = idChar b) : a = b :=
  (by decide +kernel : ∀ a < 64, ∀ b < 64, idChar a = idChar b → a = b) a ha b hb h

theorem idChar_ne {a : Nat} (ha : a < 64) : idChar a ≠ 61 :=
  (by decide +kernel : ∀ a < 64, idChar a ≠ 61) a ha

theorem idChar_quotable {a : Nat} (ha : a < 64) : QuotableByte (idChar a) ∧ idChar a ≠ 39 ∧ idChar a ≠ 47 :=
  (by decide +kernel : ∀ a < 64, QuotableByte (idChar a) ∧ idChar a ≠ 39 ∧ idChar a ≠ 47) a ha

/-- The encoded value of a document id. -/
def idVal : Bytes → Bytes
  | [] => []
  | [a] => [idChar (a.toNat / 4), idChar (a.toNat % 4 * 16), 61, 61]
  | [a, b] => [idChar (a.toNat / 4), idChar (a.toNat % 4 * 16 + b.toNat / 16), idChar (b.toNat % 16 * 4), 61]
  | a :: b :: c :: r =>
    idChar (a.toNat / 4) :: idChar (a.toNat % 4 * 16 + b.toNat / 16) ::
      idChar (b.toNat % 16 * 4 + c.toNat / 64) :: idChar (c.toNat % 64) :: idVal r

theorem idVal_eq : ∀ s, (base64 s).map (fun c => if c = 47 then 95 else c) = idVal s
  | [] => rfl
  | [_] => by simp [base64, idVal, idChar]
  | [_, _] => by simp [base64, idVal, idChar]
  | a :: b :: c :: r => by simp [base64, idVal, idChar, idVal_eq r]

theorem toNat_lt' (a : UInt8) : a.toNat < 256 := a.toNat_lt

theorem idVal_inj : ∀ s t, idVal s = idVal t → s = t
  | [], [], _ => rfl
  | [], [_], h => by simp [idVal] at h
  | [], [_, _], h => by simp [idVal] at h
  | [], _ :: _ :: _ :: _, h => by simp [idVal] at h
  | [_], [], h => by simp [idVal] at h
  | [_, _], [], h => by simp [idVal] at h
  | _ :: _ :: _ :: _, [], h => by simp [idVal] at h
  | [a], [b], h => by
    simp only [idVal, List.cons.injEq, and_true] at h
    have ha := toNat_lt' a; have hb := toNat_lt' b
    have h1 := idChar_inj (by omega) (by omega) h.1
    have h2 := idChar_inj (by omega) (by omega) h.2
    have : a.toNat = b.toNat := by omega
    rw [UInt8.toNat_inj.1 this]
  | [a], [b, c], h => by
    simp only [idVal, List.cons.injEq] at h
    have hc := toNat_lt' c
    exact absurd h.2.2.1.symm (idChar_ne (by omega))
  | [b, c], [a], h => by
    simp only [idVal, List.cons.injEq] at h
    have hc := toNat_lt' c
    exact absurd h.2.2.1 (idChar_ne (by omega))
  | [a], b :: c :: d :: r, h => by
    simp only [idVal, List.cons.injEq] at h
    have hc := toNat_lt' c; have hd := toNat_lt' d
    exact absurd h.2.2.1.symm (idChar_ne (by omega))
  | b :: c :: d :: r, [a], h => by
    simp only [idVal, List.cons.injEq] at h
    have hc := toNat_lt' c; have hd := toNat_lt' d
    exact absurd h.2.2.1 (idChar_ne (by omega))
  | [a, b], [c, d], h => by
    simp only [idVal, List.cons.injEq, and_true] at h
    have ha := toNat_lt' a; have hb := toNat_lt' b; have hc := toNat_lt' c; have hd := toNat_lt' d
    have h1 := idChar_inj (by omega) (by omega) h.1
    have h2 := idChar_inj (by omega) (by omega) h.2.1
    have h3 := idChar_inj (by omega) (by omega) h.2.2
    have e1 : a.toNat = c.toNat := by omega
    have e2 : b.toNat = d.toNat := by omega
    rw [UInt8.toNat_inj.1 e1, UInt8.toNat_inj.1 e2]
  | [a, b], c :: d :: e :: r, h => by
    simp only [idVal, List.cons.injEq] at h
    have he := toNat_lt' e
    exact absurd h.2.2.2.1.symm (idChar_ne (by omega))
  | c :: d :: e :: r, [a, b], h => by
    simp only [idVal, List.cons.injEq] at h
    have he := toNat_lt' e
    exact absurd h.2.2.2.1 (idChar_ne (by omega))
  | a :: b :: c :: r, d :: e :: f :: t, h => by
    simp only [idVal, List.cons.injEq] at h
    have ha := toNat_lt' a; have hb := toNat_lt' b; have hc := toNat_lt' c
    have hd := toNat_lt' d; have he := toNat_lt' e; have hf := toNat_lt' f
    have h1 := idChar_inj (by omega) (by omega) h.1
    have h2 := idChar_inj (by omega) (by omega) h.2.1
    have h3 := idChar_inj (by omega) (by omega) h.2.2.1
    have h4 := idChar_inj (by omega) (by omega) h.2.2.2.1
    have e1 : a.toNat = d.toNat := by omega
    have e2 : b.toNat = e.toNat := by omega
    have e3 : c.toNat = f.toNat := by omega
    rw [UInt8.toNat_inj.1 e1, UInt8.toNat_inj.1 e2, UInt8.toNat_inj.1 e3, idVal_inj r t h.2.2.2.2]

theorem idVal_chars : ∀ s, ∀ c ∈ idVal s, QuotableByte c ∧ c ≠ 39 ∧ c ≠ 47
  | [], c, h => by simp [idVal] at h
  | [a], c, h => by
    have ha := toNat_lt' a
    simp only [idVal, List.mem_cons, List.not_mem_nil, or_false] at h
    rcases h with rfl | rfl | rfl | rfl
    · exact idChar_quotable (by omega)
    · exact idChar_quotable (by omega)
    · decide
    · decide
  | [a, b], c, h => by
    have ha := toNat_lt' a; have hb := toNat_lt' b
    simp only [idVal, List.mem_cons, List.not_mem_nil, or_false] at h
    rcases h with rfl | rfl | rfl | rfl
    · exact idChar_quotable (by omega)
    · exact idChar_quotable (by omega)
    · exact idChar_quotable (by omega)
    · decide
  | a :: b :: d :: r, c, h => by
    have ha := toNat_lt' a; have hb := toNat_lt' b; have hd := toNat_lt' d
    simp only [idVal, List.mem_cons] at h
    rcases h with rfl | rfl | rfl | rfl | h
    · exact idChar_quotable (by omega)
    · exact idChar_quotable (by omega)
    · exact idChar_quotable (by omega)
    · exact idChar_quotable (by omega)
    · exact idVal_chars r c h

theorem idVal_length : ∀ s, (idVal s).length = (s.length + 2) / 3 * 4
  | [] => rfl
  | [_] => by simp [idVal]
  | [_, _] => by simp [idVal]
  | a :: b :: c :: r => by
    simp only [idVal, List.length_cons, idVal_length r]
    omega

theorem trunc_eq (v : Bytes) : (if v.length > maxIndexLen then v.take maxIndexLen else v) = v.take 256 := by
  unfold maxIndexLen
  split
  · rfl
  · rw [List.take_of_length_le (by omega)]

theorem docId_eq (md5 : Bytes → Bytes) (it : DocItem) :
    docId md5 it = docPart it.part ++ md5 it.column ++ idVal (it.val.take 256) := by
  simp only [docId, idVal_eq, trunc_eq]

theorem natDec_length_le : ∀ (k n : Nat), n < 10 ^ (k + 1) → (natDec n).length ≤ k + 1
  | 0, n, h => by rw [natDec_eq, if_pos (by simpa using h)]; simp
  | k + 1, n, h => by
    rw [natDec_eq]
    split
    · simp
    · have := natDec_length_le k (n / 10) (by rw [Nat.pow_succ] at h; omega)
      simp only [List.length_append, List.length_singleton]
      omega

theorem digitsVal_zero (t : Bytes) : digitsVal 0 ((48 : UInt8) :: t) = digitsVal 0 t := by
  have e : 10 * 0 + ((48 : UInt8).toNat - 48) = 0 := by decide
  show digitsVal (10 * 0 + ((48 : UInt8).toNat - 48)) t = _
  rw [e]

theorem digitsVal_zeros (s : Bytes) : ∀ k : Nat, digitsVal 0 (List.replicate k (48 : UInt8) ++ s) = digitsVal 0 s
  | 0 => by simp
  | k + 1 => by
    rw [List.replicate_succ, List.cons_append, digitsVal_zero]
    exact digitsVal_zeros s k

theorem docPart_length {p : Int} (h0 : 0 ≤ p) (h1 : p < 2 ^ 31) : (docPart p).length = 10 := by
  have hd : intDec p = natDec p.natAbs := by unfold intDec; rw [if_neg (by omega)]
  have e : (10 : Nat) ^ (9 + 1) = 10000000000 := by decide
  have e' : (2 : Int) ^ 31 = 2147483648 := by decide
  have := natDec_length_le 9 p.natAbs (by rw [e]; omega)
  simp only [docPart, hd, List.length_append, List.length_replicate]
  omega

theorem docPart_inj {p q : Int} (h0 : 0 ≤ p) (h2 : 0 ≤ q) (h : docPart p = docPart q) : p = q := by
  have hd : intDec p = natDec p.natAbs := by unfold intDec; rw [if_neg (by omega)]
  have hd' : intDec q = natDec q.natAbs := by unfold intDec; rw [if_neg (by omega)]
  have := congrArg (digitsVal 0) h
  simp only [docPart, digitsVal_zeros, hd, hd', digitsVal_natDec] at this
  omega

theorem docPart_plain (p : Int) : ∀ b ∈ docPart p, PlainByte b := by
  intro b hb
  rcases List.mem_append.1 hb with hb | hb
  · rw [(List.mem_replicate.1 hb).2]; decide
  · exact intDec_plain p b hb

theorem docId_quotable {md5 : Bytes → Bytes} (hmd5 : ∀ c, HexDigest (md5 c)) (it : DocItem) :
    ∀ b ∈ docId md5 it, QuotableByte b ∧ b ≠ 39 := by
  intro b hb
  have hp : ∀ b, PlainByte b → QuotableByte b ∧ b ≠ 39 := fun b h => ⟨quotable_of_plain h, h.2.2.1⟩
  rw [docId_eq] at hb
  simp only [List.mem_append] at hb
  rcases hb with (hb | hb) | hb
  · exact hp b (docPart_plain _ b hb)
  · exact hp b (hex_plain b ((hmd5 _).2 b hb))
  · exact ⟨(idVal_chars _ b hb).1, (idVal_chars _ b hb).2.1⟩

/-- **C75.** Two documents have the same id exactly if they are of the same part and of columns with
the same digest and their values agree in the first 256 bytes. -/
theorem C75_same_id {md5 : Bytes → Bytes} (hmd5 : ∀ c, (md5 c).length = 32) (a b : DocItem)
    (ha : 0 ≤ a.part ∧ a.part < 2 ^ 31) (hb : 0 ≤ b.part ∧ b.part < 2 ^ 31) :
    docId md5 a = docId md5 b ↔
      a.part = b.part ∧ md5 a.column = md5 b.column ∧ a.val.take 256 = b.val.take 256 := by
  rw [docId_eq, docId_eq]
  constructor
  · intro h
    have hl1 := docPart_length ha.1 ha.2
    have hl2 := docPart_length hb.1 hb.2
    obtain ⟨h1, h2⟩ := List.append_inj h (by simp [hl1, hl2, hmd5])
    obtain ⟨h3, h4⟩ := List.append_inj h1 (by simp [hl1, hl2])
    exact ⟨docPart_inj ha.1 hb.1 h3, h4, idVal_inj _ _ h2⟩
  · rintro ⟨h1, h2, h3⟩
    rw [h1, h2, h3]

/-- **C75.** Ids have at most 386 bytes (the limit of the search engine is 512) and none of them needs
quoting in a URL path: they have no slash. -/
theorem C75_id_text {md5 : Bytes → Bytes} (hmd5 : ∀ c, HexDigest (md5 c)) (a : DocItem)
    (ha : 0 ≤ a.part ∧ a.part < 2 ^ 31) : (docId md5 a).length ≤ 386 ∧ (47 : UInt8) ∉ docId md5 a := by
  rw [docId_eq]
  constructor
  · simp only [List.length_append, docPart_length ha.1 ha.2, (hmd5 _).1, idVal_length, List.length_take]
    omega
  · intro h
    simp only [List.mem_append] at h
    rcases h with (h | h) | h
    · rcases List.mem_append.1 h with h | h
      · exact absurd (List.mem_replicate.1 h).2 (by decide)
      · have hd : intDec a.part = natDec a.part.natAbs := by unfold intDec; rw [if_neg (by omega)]
        rw [hd] at h
        exact absurd (natDec_digits _ _ h) (by decide)
    · have := (hmd5 a.column).2 _ h
      exact absurd this (by decide)
    · exact (idVal_chars _ _ h).2.2 rfl

/-- The digest used by the examples. -/
def sampleMd5 (_ : Bytes) : Bytes := List.replicate 32 97
theorem sampleMd5_hex (c : Bytes) : HexDigest (sampleMd5 c) :=
  (by decide +kernel : (List.replicate 32 (97 : UInt8)).length = 32 ∧ ∀ c ∈ List.replicate 32 (97 : UInt8), (48 ≤ c ∧ c ≤ 57) ∨ (97 ≤ c ∧ c ≤ 102))

example : docId sampleMd5 ⟨ascii "i", ascii "c", 7, [255, 255, 255, 0]⟩ =
    ascii "0000000007aaaaaaaaaaaaaaaaaaaaaaaaaaaaaaaa____AA==" := by decide +kernel

/-! ## C60 -/

theorem contentJson_eq : contentJson = ascii " -H \"Content-Type: " ++ ascii "application/json" ++ ascii "; charset=utf-8\"" := by decide +kernel
theorem contentNdjson_eq : contentNdjson = ascii " -H \"Content-Type: " ++ ascii "application/x-ndjson" ++ ascii "; charset=utf-8\"" := by decide +kernel
theorem xput_eq : xput = ascii " -X" ++ ascii "PUT" := by decide +kernel
theorem xpost_eq : xpost = ascii " -X" ++ ascii "POST" := by decide +kernel
theorem xget_eq : xget = ascii " -X" ++ ascii "GET" := by decide +kernel
theorem xdelete_eq : xdelete = ascii " -X" ++ ascii "DELETE" := by decide +kernel

/-- The data argument ` -d'…'`. -/
theorem sh_data (s : Bytes) (h : (0 : UInt8) ∉ s) (w : Bytes) :
    sh .plain (some w) (ascii " -d'" ++ normalized s ++ ascii "'") = some [w, ascii "-d" ++ s] := by
  have e : ascii " -d'" ++ normalized s ++ ascii "'" = 32 :: (ascii "-d" ++ 39 :: (normalized s ++ 39 :: [])) := by simp [ascii]
  rw [e, sh_space, sh_plain _ (by decide) (by simp [ascii])]
  have : ∀ x r, sh .plain (some x) (39 :: r) = sh .single (some x) r := by intro x r; simp [sh]
  rw [this, sh_single s h, sh_end]
  simp

section
variable {ord : List Bytes → List Bytes} {md5 : Bytes → Bytes} {c : Client}

/-- **C60.** The command that stores a document runs curl with exactly the intended arguments,
whatever the value and the column are; the data argument is the JSON text of the document. -/
theorem C60_put (hord : ∀ l, (ord l).Perm l) (hmd5 : ∀ c, HexDigest (md5 c)) (hc : SafeClient c)
    (it : DocItem) (hi : ∀ b ∈ it.index, QuotableByte b) :
    shellArgs (putCmd ord md5 c it) =
      some (curlArgs "application/json" "PUT" c (it.index ++ ascii "/_doc/" ++ docId md5 it)
        [ascii "-d" ++ toJson ord (.obj [(ascii "column_id", .str (md5 it.column)), (ascii "value", .str (it.val.take 256))])]) := by
  apply shellArgs_of_sh
  have hv : putDoc md5 it = .obj [(ascii "column_id", .str (md5 it.column)), (ascii "value", .str (it.val.take 256))] := by
    rw [putDoc, docVal, trunc_eq]
  have hp : ∀ b ∈ it.index ++ ascii "/_doc/" ++ docId md5 it, QuotableByte b := by
    intro b hb
    simp only [List.mem_append] at hb
    rcases hb with (hb | hb) | hb
    · exact hi b hb
    · revert b; decide
    · exact (docId_quotable hmd5 it b hb).1
  have := sh_front "application/json" "PUT" (by decide) (by decide) c hc _ hp
    (ascii " -d'" ++ normalized (toJson ord (putDoc md5 it)) ++ ascii "'") _ (sh_data _ (toJson_nul hord _))
  rw [← hv, ← this, putCmd, putHeader, putBody, contentJson_eq, xput_eq]
  simp only [List.append_assoc]

/-- **C60.** The command of a search, for every value searched for. -/
theorem C60_search (hord : ∀ l, (ord l).Perm l) (hc : SafeClient c)
    (it : DocItem) (hi : ∀ b ∈ it.index, QuotableByte b) (timeout maxRows : Int) (op : SearchOp) :
    shellArgs (searchCmd ord md5 c it timeout maxRows op) =
      some (curlArgs "application/json" "GET" c (it.index ++ ascii "/_search?timeout=" ++ intDec timeout ++ ascii "ms")
        [ascii "-d" ++ toJson ord (searchQuery md5 it maxRows op)]) := by
  apply shellArgs_of_sh
  have hp : ∀ b ∈ it.index ++ ascii "/_search?timeout=" ++ intDec timeout ++ ascii "ms", QuotableByte b := by
    intro b hb
    simp only [List.mem_append] at hb
    rcases hb with ((hb | hb) | hb) | hb
    · exact hi b hb
    · revert b; decide
    · exact quotable_of_plain (intDec_plain _ b hb)
    · revert b; decide
  have := sh_front "application/json" "GET" (by decide) (by decide) c hc _ hp
    (ascii " -d'" ++ normalized (toJson ord (searchQuery md5 it maxRows op)) ++ ascii "'") _ (sh_data _ (toJson_nul hord _))
  rw [← this, searchCmd, searchHeader, searchBody, contentJson_eq, xget_eq]
  simp only [List.append_assoc]

/-- **C60.** The commands that create, drop and look up an index. -/
theorem C60_index (hc : SafeClient c) (index : Bytes) (hi : ∀ b ∈ index, QuotableByte b) :
    shellArgs (createIndexCmd c index) = some (curlArgs "application/json" "PUT" c index []) ∧
    shellArgs (dropIndexCmd c index) = some (curlArgs "application/json" "DELETE" c index []) ∧
    shellArgs (indexExistsCmd c index) =
      some (curlArgs "application/json" "GET" c (ascii "_cat/indices/" ++ index ++ ascii "?format=json") []) := by
  have hend : ∀ w, sh .plain (some w) [] = some [w] := sh_end
  refine ⟨shellArgs_of_sh ?_, shellArgs_of_sh ?_, shellArgs_of_sh ?_⟩
  · have := sh_front "application/json" "PUT" (by decide) (by decide) c hc _ hi [] [] hend
    rw [← this, createIndexCmd, contentJson_eq, xput_eq]
    simp only [List.append_assoc, List.append_nil]
  · have := sh_front "application/json" "DELETE" (by decide) (by decide) c hc _ hi [] [] hend
    rw [← this, dropIndexCmd, contentJson_eq, xdelete_eq]
    simp only [List.append_assoc, List.append_nil]
  · have hp : ∀ b ∈ ascii "_cat/indices/" ++ index ++ ascii "?format=json", QuotableByte b := by
      intro b hb
      simp only [List.mem_append] at hb
      rcases hb with (hb | hb) | hb
      · revert b; decide
      · exact hi b hb
      · revert b; decide
    have := sh_front "application/json" "GET" (by decide) (by decide) c hc _ hp [] [] hend
    rw [← this, indexExistsCmd, contentJson_eq, xget_eq]
    simp only [List.append_assoc, List.append_nil]

/-- The lines a bulk command sends for one document. -/
def bulkLines (ord : List Bytes → List Bytes) (md5 : Bytes → Bytes) (it : DocItem) : Bytes :=
  toJson ord (.obj [(ascii "index", .obj [(ascii "_id", .str (docId md5 it)), (ascii "_index", .str it.index)])]) ++ [10] ++
    toJson ord (.obj [(ascii "value", .str (it.val.take 256)), (ascii "column_id", .str (md5 it.column))]) ++ [10]

theorem commas_quote : ∀ l : List Bytes, (∀ e ∈ l, (39 : UInt8) ∉ e) → (39 : UInt8) ∉ commas l
  | [], _ => by simp [commas]
  | [e], h => by simpa [commas] using h e (by simp)
  | e :: f :: l, h => by
    have h1 := h e (by simp)
    have h2 := commas_quote (f :: l) (fun x hx => h x (by simp [hx]))
    simp only [commas, List.mem_append, List.mem_cons, not_or]
    exact ⟨h1, by decide, h2⟩

theorem jsonEsc_quote (c : UInt8) (h : c ≠ 39) : (39 : UInt8) ∉ jsonEsc c :=
  allBytes (P := fun c => c ≠ 39 → (39 : UInt8) ∉ jsonEsc c) (by decide +kernel) c h

theorem jsonStr_quote (s : Bytes) (hs : (39 : UInt8) ∉ s) : (39 : UInt8) ∉ jsonStr s := by
  intro h
  simp only [jsonStr, List.mem_cons, List.mem_append, List.mem_flatMap, List.not_mem_nil, or_false] at h
  rcases h with h | ⟨c, hc, h⟩ | h
  · exact absurd h (by decide)
  · exact jsonEsc_quote c (by rintro rfl; exact hs hc) h
  · exact absurd h (by decide)

theorem bulkMeta_quote (hord : ∀ l, (ord l).Perm l) (hmd5 : ∀ c, HexDigest (md5 c)) (it : DocItem) (hq : (39 : UInt8) ∉ it.index) :
    (39 : UInt8) ∉ toJson ord (bulkMeta md5 it) := by
  have hid : (39 : UInt8) ∉ docId md5 it := fun h => (docId_quotable hmd5 it _ h).2 rfl
  have hin : (39 : UInt8) ∉ toJson ord (.obj [(ascii "_id", .str (docId md5 it)), (ascii "_index", .str it.index)]) := by
    rw [toJson]
    have : (39 : UInt8) ∉ commas (ord (toJsonEntries ord [(ascii "_id", .str (docId md5 it)), (ascii "_index", .str it.index)])) := by
      apply commas_quote
      intro e he
      have he := (hord _).mem_iff.1 he
      simp only [toJsonEntries, List.mem_cons, List.not_mem_nil, or_false] at he
      rcases he with rfl | rfl
      · have h1 : (39 : UInt8) ∉ jsonStr (ascii "_id") := by decide +kernel
        have h2 := jsonStr_quote _ hid
        rw [toJson]
        simp only [List.mem_append, List.mem_cons, not_or]
        exact ⟨h1, by decide, h2⟩
      · have h1 : (39 : UInt8) ∉ jsonStr (ascii "_index") := by decide +kernel
        have h2 := jsonStr_quote _ hq
        rw [toJson]
        simp only [List.mem_append, List.mem_cons, not_or]
        exact ⟨h1, by decide, h2⟩
    simp only [List.mem_cons, List.mem_append, List.not_mem_nil, not_or]
    exact ⟨by decide, this, by decide, by simp⟩
  rw [bulkMeta, toJson]
  have : (39 : UInt8) ∉ commas (ord (toJsonEntries ord [(ascii "index", .obj [(ascii "_id", .str (docId md5 it)), (ascii "_index", .str it.index)])])) := by
    apply commas_quote
    intro e he
    have he := (hord _).mem_iff.1 he
    simp only [toJsonEntries, List.mem_cons, List.not_mem_nil, or_false] at he
    subst he
    have h1 : (39 : UInt8) ∉ jsonStr (ascii "index") := by decide +kernel
    simp only [List.mem_append, List.mem_cons, not_or]
    exact ⟨h1, by decide, hin⟩
  simp only [List.mem_cons, List.mem_append, List.not_mem_nil, not_or]
  exact ⟨by decide, this, by decide, by simp⟩

theorem sh_bulkItems (hord : ∀ l, (ord l).Perm l) (hmd5 : ∀ c, HexDigest (md5 c)) :
    ∀ (items : List DocItem), (∀ it ∈ items, (39 : UInt8) ∉ it.index) → ∀ w r,
      sh .single (some w) (items.flatMap (bulkItem ord md5) ++ r) = sh .single (some (w ++ items.flatMap (bulkLines ord md5))) r
  | [], _, w, r => by simp
  | it :: items, hq, w, r => by
    have e1 : bulkItem ord md5 it = toJson ord (bulkMeta md5 it) ++ ([10] ++ (normalized (toJson ord (bulkDoc md5 it)) ++ [10])) := by
      simp [bulkItem]
    have e2 : bulkLines ord md5 it = toJson ord (bulkMeta md5 it) ++ ([10] ++ (toJson ord (bulkDoc md5 it) ++ [10])) := by
      simp only [bulkLines, bulkMeta, bulkDoc, docVal, trunc_eq, List.append_assoc]
    have hn : ∀ w r, sh .single (some w) (10 :: r) = sh .single (some (w ++ [10])) r := by intro w r; simp [sh]
    simp only [List.flatMap_cons, e1, e2, List.append_assoc]
    rw [sh_single_raw _ (toJson_nul hord _) (bulkMeta_quote hord hmd5 it (hq it (by simp)))]
    have hc : ∀ x : Bytes, [10] ++ x = 10 :: x := fun _ => rfl
    rw [hc, hn, sh_single_norm _ (toJson_nul hord _), hc, hn, sh_bulkItems hord hmd5 items (fun x hx => hq x (by simp [hx]))]
    simp

/-- **C60.** A bulk command, for every list of documents, if no index name contains a single quote. -/
theorem C60_bulk (hord : ∀ l, (ord l).Perm l) (hmd5 : ∀ c, HexDigest (md5 c)) (hc : SafeClient c)
    (items : List DocItem) (hne : items ≠ []) (hq : ∀ it ∈ items, (39 : UInt8) ∉ it.index) :
    shellArgs (bulkCmd ord md5 c items) =
      some (curlArgs "application/x-ndjson" "POST" c (ascii "_bulk")
        [ascii "-d", 10 :: items.flatMap (bulkLines ord md5)]) := by
  apply shellArgs_of_sh
  have hb : bulkBody ord md5 items = ascii " -d '" ++ [10] ++ items.flatMap (bulkItem ord md5) ++ ascii "'" := by
    rw [bulkBody, if_neg hne]
  have hb' : bulkBody ord md5 items ≠ [] := by rw [hb]; simp [ascii]
  have hdata : ∀ w, sh .plain (some w) (bulkBody ord md5 items) = some [w, ascii "-d", 10 :: items.flatMap (bulkLines ord md5)] := by
    intro w
    have e : bulkBody ord md5 items = 32 :: (ascii "-d" ++ 32 :: (39 :: 10 :: (items.flatMap (bulkItem ord md5) ++ 39 :: []))) := by
      rw [hb]; simp [ascii]
    have h1 : ∀ r, sh .plain none (39 :: 10 :: r) = sh .single (some [10]) r := by intro r; simp [sh]
    have h2 : ∀ w, sh .single (some w) [39] = some [w] := by intro w; simp [sh]
    rw [e, sh_space, sh_word _ (by decide) (by simp [ascii]), h1, sh_bulkItems hord hmd5 items hq, h2]
    simp
  have := sh_front "application/x-ndjson" "POST" (by decide) (by decide) c hc (ascii "_bulk") (by decide) _ _ hdata
  rw [← this, bulkCmd, if_neg hb', bulkHeader, contentNdjson_eq, xpost_eq]
  have e : ascii "_bulk\"" = ascii "_bulk" ++ ascii "\"" := by decide +kernel
  simp only [e, List.append_assoc]
end

/-- An empty bulk runs no command (`bulk` returns true, ESStorageAdapter.cpp:134-136). -/
theorem C60_bulk_empty (ord : List Bytes → List Bytes) (md5 : Bytes → Bytes) (c : Client) : bulkCmd ord md5 c [] = [] := by
  simp [bulkCmd, bulkBody]

/-- The client used by the examples. -/
def sampleClient : Client := ⟨⟨ascii "127.0.0.1", 9200⟩, ascii "root", ascii "nebula"⟩
theorem sampleClient_safe : SafeClient sampleClient := by unfold SafeClient; decide +kernel

/-- A value full of shell text. -/
def evilValue : Bytes := ascii "'; rm -rf / #$(id)`id`\"\\"

example : shellArgs (putCmd id sampleMd5 sampleClient ⟨ascii "idx", ascii "col'", 1, evilValue⟩) =
    some [ascii "/usr/bin/curl", ascii "-H", ascii "Content-Type: application/json; charset=utf-8", ascii "-XPUT",
      ascii "-u", ascii "root:nebula", ascii "http://127.0.0.1:9200/idx/_doc/0000000001aaaaaaaaaaaaaaaaaaaaaaaaaaaaaaaaJzsgcm0gLXJmIC8gIyQoaWQpYGlkYCJc",
      ascii "-d{\"column_id\":\"aaaaaaaaaaaaaaaaaaaaaaaaaaaaaaaa\",\"value\":\"'; rm -rf / #$(id)`id`\\\"\\\\\"}"] := by
  decide +kernel

example : shellArgs (searchCmd id sampleMd5 sampleClient ⟨ascii "idx", ascii "c", 0, ascii "a'b"⟩ 10 100 .pre) =
    some [ascii "/usr/bin/curl", ascii "-H", ascii "Content-Type: application/json; charset=utf-8", ascii "-XGET",
      ascii "-u", ascii "root:nebula", ascii "http://127.0.0.1:9200/idx/_search?timeout=10ms",
      ascii "-d{\"query\":{\"bool\":{\"must\":[{\"term\":{\"column_id\":\"aaaaaaaaaaaaaaaaaaaaaaaaaaaaaaaa\"}},{\"prefix\":{\"value\":\"a'b\"}}]}},\"_source\":\"value\",\"size\":100,\"from\":0}"] := by
  decide +kernel

/-- **C60 violated** for index names in a bulk: a single quote in one ends the quoting. With the index
`a''b` the quotes are dropped from the data; with `a'b` the command is not a command any more; with
`a';id;'b` a second command runs. -/
theorem C60_bulk_index_violated :
    (∃ ws, shellArgs (bulkCmd id sampleMd5 sampleClient [⟨ascii "a''b", ascii "c", 1, ascii "v"⟩]) = some ws ∧
      (10 :: bulkLines id sampleMd5 ⟨ascii "a''b", ascii "c", 1, ascii "v"⟩) ∉ ws) ∧
    shellArgs (bulkCmd id sampleMd5 sampleClient [⟨ascii "a'b", ascii "c", 1, ascii "v"⟩]) = none ∧
    shellArgs (bulkCmd id sampleMd5 sampleClient [⟨ascii "a';id;'b", ascii "c", 1, ascii "v"⟩]) = none := by
  refine ⟨⟨(shellArgs (bulkCmd id sampleMd5 sampleClient [⟨ascii "a''b", ascii "c", 1, ascii "v"⟩])).getD [], ?_, ?_⟩, ?_, ?_⟩
  all_goals decide +kernel

/-- **C60 violated** for index names in a URL and for credentials: they are not quoted. `$(id)` in an
index name and `;` in a password are left to the shell, and a blank in a password splits it. -/
theorem C60_unquoted_violated :
    shellArgs (dropIndexCmd sampleClient (ascii "$(id)")) = none ∧
    shellArgs (dropIndexCmd { sampleClient with password := ascii "a;b" } (ascii "idx")) = none ∧
    shellArgs (dropIndexCmd { sampleClient with password := ascii "a b" } (ascii "idx")) =
      some [ascii "/usr/bin/curl", ascii "-H", ascii "Content-Type: application/json; charset=utf-8", ascii "-XDELETE",
        ascii "-u", ascii "root:a", ascii "b", ascii "http://127.0.0.1:9200/idx"] := by
  refine ⟨?_, ?_, ?_⟩ <;> decide +kernel

/-! ## C76: reading the answers -/

theorem has_iff (j : J) (k : String) (v : J) : j.Has k v ↔ j.find (ascii k) = some (some v) := by
  cases j <;> simp [J.Has, J.find]

theorem lacks_iff (j : J) (k : String) : j.Lacks k ↔ j.find (ascii k) = some none := by
  cases j <;> simp [J.Lacks, J.find]

theorem hitRow_value {h : J} {r : List Bytes} (e : hitRow h = some r) :
    (∃ v, r = [v] ∧ HitValue h v) ∨ (r = [] ∧ HitNone h) := by
  unfold hitRow at e
  split at e
  · cases e
  · rename_i hs; cases e; exact .inr ⟨rfl, .inl ((lacks_iff _ _).2 hs)⟩
  · rename_i s hs
    split at e
    · cases e
    · rename_i hv; cases e; exact .inr ⟨rfl, .inr ⟨s, (has_iff _ _ _).2 hs, (lacks_iff _ _).2 hv⟩⟩
    · rename_i v hv; cases e; exact .inl ⟨v, rfl, s, (has_iff _ _ _).2 hs, (has_iff _ _ _).2 hv⟩
    · cases e

theorem hitRow_of_value {h : J} {v : Bytes} (e : HitValue h v) : hitRow h = some [v] := by
  obtain ⟨s, hs, hv⟩ := e
  rw [has_iff] at hs hv
  simp [hitRow, hs, hv]

theorem hitRow_of_none {h : J} (e : HitNone h) : hitRow h = some [] := by
  rcases e with e | ⟨s, hs, hv⟩
  · rw [lacks_iff] at e; simp [hitRow, e]
  · rw [has_iff] at hs; rw [lacks_iff] at hv; simp [hitRow, hs, hv]

theorem hitRows_iff : ∀ (l : List J) (rows out : List Bytes),
    hitRows l rows = (true, out) ↔ ∃ vs, HitValues l vs ∧ out = rows ++ vs
  | [], rows, out => by
    constructor
    · intro h; cases h; exact ⟨[], .nil, by simp⟩
    · rintro ⟨vs, hv, rfl⟩; cases hv; simp [hitRows]
  | h :: hs, rows, out => by
    constructor
    · intro e
      rw [hitRows] at e
      split at e
      · cases e
      · rename_i r hr
        obtain ⟨vs, hv, rfl⟩ := (hitRows_iff hs _ _).1 e
        rcases hitRow_value hr with ⟨v, rfl, hh⟩ | ⟨rfl, hh⟩
        · exact ⟨v :: vs, .value hh hv, by simp⟩
        · exact ⟨vs, .none hh hv, by simp⟩
    · rintro ⟨vs, hv, rfl⟩
      rw [hitRows]
      cases hv with
      | value hh hv => rw [hitRow_of_value hh]; exact (hitRows_iff hs _ _).2 ⟨_, hv, by simp⟩
      | none hh hv => rw [hitRow_of_none hh]; exact (hitRows_iff hs _ _).2 ⟨_, hv, by simp⟩

/-- **C76.** A search succeeds exactly if the answer has the form of one, and it then appends the
values of the hits, in their order, and nothing else. -/
theorem C76_search_result (ret : Option J) (rows out : List Bytes) :
    result ret rows = (true, out) ↔
      ∃ root h, ret = some root ∧ root.Has "hits" h ∧
        ((h.Lacks "hits" ∧ out = rows) ∨ ∃ l vs, h.Has "hits" (.arr l) ∧ HitValues l vs ∧ out = rows ++ vs) := by
  cases ret with
  | none => simp [result]
  | some root =>
    simp only [result, Option.some.injEq, has_iff, lacks_iff]
    split
    · rename_i h1; simp [h1]
    · rename_i h1; simp [h1]
    · rename_i h h1
      split
      · rename_i h2; simp [h1, h2]
      · rename_i h2; simp [h1, h2, eq_comm]
      · rename_i l h2
        rw [hitRows_iff]
        simp [h1, h2]
      · rename_i x hx h2
        simp [h1, h2]
        intro l e; exact absurd e (by intro e; exact hx l e)

theorem hitRows_prefix : ∀ (l : List J) (rows : List Bytes), rows <+: (hitRows l rows).2
  | [], rows => List.prefix_refl _
  | h :: hs, rows => by
    rw [hitRows]
    split
    · exact List.prefix_refl _
    · exact (List.prefix_append _ _).trans (hitRows_prefix hs _)

/-- **C76.** Rows already there stay in front, whether the search succeeds or not. -/
theorem C76_rows_kept (ret : Option J) (rows : List Bytes) : rows <+: (result ret rows).2 := by
  unfold result
  repeat' split
  all_goals first | exact List.prefix_refl _ | exact hitRows_prefix _ _

/-- A search that fails may have added rows all the same: the values in front of the malformed hit. -/
theorem C76_failed_rows_violated :
    ∃ ret, result (some ret) [] = (false, [ascii "a"]) :=
  ⟨.obj [(ascii "hits", .obj [(ascii "hits", .arr [.obj [(ascii "_source", .obj [(ascii "value", .str (ascii "a"))])], .null])])],
    by decide +kernel⟩

example : result (some (.obj [(ascii "took", .int 3), (ascii "hits", .obj [(ascii "hits", .arr
    [.obj [(ascii "_source", .obj [(ascii "value", .str (ascii "a"))])], .obj [(ascii "_source", .obj [])],
     .obj [(ascii "_source", .obj [(ascii "value", .str (ascii "b"))])]])])])) [] = (true, [ascii "a", ascii "b"]) := by
  decide +kernel

/-- **C76.** An index operation succeeded exactly if the answer says `"acknowledged": true`; a document was
stored exactly if the answer says created or updated; a bulk exactly if it says that there were no errors. -/
theorem C76_status (ret : Option J) :
    (statusCheck ret = true ↔ ∃ j, ret = some j ∧ j.Has "acknowledged" (.bool true)) ∧
    (checkPut ret = true ↔ ∃ j, ret = some j ∧ (j.Has "result" (.str (ascii "created")) ∨ j.Has "result" (.str (ascii "updated")))) ∧
    (checkBulk ret = true ↔ ∃ j, ret = some j ∧ j.Has "errors" (.bool false)) := by
  simp only [has_iff]
  refine ⟨?_, ?_, ?_⟩
  · unfold statusCheck
    split
    · rename_i l
      simp only [Option.some.injEq, exists_eq_left']
      split
      · rename_i b hb; simp [hb]
      · rename_i hb; simp; intro e; exact hb _ e
    · rename_i hb
      simp
      intro j hj e
      cases j <;> simp [J.find] at e
      exact hb _ hj
  · unfold checkPut
    split
    · rename_i l
      simp only [Option.some.injEq, exists_eq_left']
      split
      · rename_i b hb; simp [hb]
      · rename_i hb; simp; exact ⟨fun e => hb _ e, fun e => hb _ e⟩
    · rename_i hb
      simp
      intro j hj
      cases j <;> simp [J.find]
      exact absurd hj (hb _)
  · unfold checkBulk
    split
    · rename_i l
      simp only [Option.some.injEq, exists_eq_left']
      split
      · rename_i b hb; simp [hb]
      · rename_i hb; simp; intro e; exact hb _ e
    · rename_i hb
      simp
      intro j hj e
      cases j <;> simp [J.find] at e
      exact hb _ hj

theorem indexLoop_iff : ∀ l : List J, indexLoop l = true ↔
    ∃ a e b v, l = a ++ e :: b ∧ (∀ x ∈ a, x.Lacks "index") ∧ e.Has "index" v
  | [] => by simp [indexLoop]
  | e :: es => by
    rw [indexLoop]
    split
    · rename_i he
      refine ⟨fun h => (by cases h), ?_⟩
      rintro ⟨a, f, b, v, h, ha, hf⟩
      exfalso
      cases a with
      | nil => simp at h; obtain ⟨rfl, _⟩ := h; rw [has_iff, he] at hf; cases hf
      | cons x a =>
        simp at h; obtain ⟨rfl, _⟩ := h
        have := ha e (by simp)
        rw [lacks_iff, he] at this; cases this
    · rename_i he
      rw [indexLoop_iff es]
      constructor
      · rintro ⟨a, f, b, v, rfl, ha, hf⟩
        exact ⟨e :: a, f, b, v, rfl, fun x hx => by
          rcases List.mem_cons.1 hx with rfl | hx
          · exact (lacks_iff _ _).2 he
          · exact ha x hx, hf⟩
      · rintro ⟨a, f, b, v, h, ha, hf⟩
        cases a with
        | nil => simp at h; obtain ⟨rfl, _⟩ := h; rw [has_iff, he] at hf; cases hf
        | cons x a => simp at h; exact ⟨a, f, b, v, h.2, fun y hy => ha y (by simp [hy]), hf⟩
    · rename_i v he
      exact ⟨fun _ => ⟨[], e, es, v, rfl, by simp, (has_iff _ _ _).2 he⟩, fun _ => rfl⟩

/-- **C76.** An index exists exactly if the listing is an array with an entry that names one, all
entries in front of it being objects. -/
theorem C76_index_exists (ret : Option J) :
    indexCheck ret = true ↔ ∃ a e b v, ret = some (.arr (a ++ e :: b)) ∧ (∀ x ∈ a, x.Lacks "index") ∧ e.Has "index" v := by
  unfold indexCheck
  split
  · rename_i l
    rw [indexLoop_iff]
    simp
  · rename_i h
    refine ⟨fun h => (by cases h), ?_⟩
    rintro ⟨a, e, b, v, rfl, _⟩
    exact absurd rfl (h _)

end FullText
end Nebula
