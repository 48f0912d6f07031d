import Verif.Json.Spec
/-! # Reading what was written -/
namespace Nebula
namespace Json

theorem allBytes {P : UInt8 → Prop} [DecidablePred P] (h : (List.range 256).all (fun n => decide (P (UInt8.ofNat n))) = true) (c : UInt8) : P c := by
  have := List.all_eq_true.mp h c.toNat (by simp [List.mem_range]; exact c.toNat_lt)
  simpa using this

/-! ## Strings -/

theorem unescape_esc (c : UInt8) (r : Bytes) (h : ∀ x, esc c ≠ [x]) : ∃ t, esc c = 92 :: t ∧ unescape (t ++ r) = some ([c], r) := by
  by_cases h1 : c = 34; · subst h1; exact ⟨[34], by decide, by simp [unescape]⟩
  by_cases h2 : c = 92; · subst h2; exact ⟨[92], by decide, by simp [unescape]⟩
  by_cases h3 : c = 8; · subst h3; exact ⟨[98], by decide, by simp [unescape]⟩
  by_cases h4 : c = 12; · subst h4; exact ⟨[102], by decide, by simp [unescape]⟩
  by_cases h5 : c = 10; · subst h5; exact ⟨[110], by decide, by simp [unescape]⟩
  by_cases h6 : c = 13; · subst h6; exact ⟨[114], by decide, by simp [unescape]⟩
  by_cases h7 : c = 9; · subst h7; exact ⟨[116], by decide, by simp [unescape]⟩
  by_cases h8 : c < 32
  · refine ⟨[117, 48, 48, hexDigit (c.toNat / 16), hexDigit (c.toNat % 16)], by simp [esc, h1, h2, h3, h4, h5, h6, h7, h8], ?_⟩
    have hx : c < 32 → hexVal 48 = some 0 ∧ hexVal (hexDigit (c.toNat / 16)) = some (c.toNat / 16) ∧ hexVal (hexDigit (c.toNat % 16)) = some (c.toNat % 16) ∧
        c.toNat / 16 * 16 + c.toNat % 16 < 128 ∧ UInt8.ofNat (c.toNat / 16 * 16 + c.toNat % 16) = c :=
      allBytes (P := fun c => c < 32 → hexVal 48 = some 0 ∧ hexVal (hexDigit (c.toNat / 16)) = some (c.toNat / 16) ∧ hexVal (hexDigit (c.toNat % 16)) = some (c.toNat % 16) ∧
        c.toNat / 16 * 16 + c.toNat % 16 < 128 ∧ UInt8.ofNat (c.toNat / 16 * 16 + c.toNat % 16) = c) (by decide +kernel) c
    obtain ⟨a0, a1, a2, a3, a4⟩ := hx h8
    simp only [List.cons_append, List.nil_append, unescape]
    simp only [show ¬ ((117 : UInt8) = 34) by decide, show ¬ ((117 : UInt8) = 92) by decide, show ¬ ((117 : UInt8) = 47) by decide,
      show ¬ ((117 : UInt8) = 98) by decide, show ¬ ((117 : UInt8) = 102) by decide, show ¬ ((117 : UInt8) = 110) by decide,
      show ¬ ((117 : UInt8) = 114) by decide, show ¬ ((117 : UInt8) = 116) by decide, if_false, if_true]
    simp only [unicodeEscape, hex4, a0, a1, a2, Option.bind_some, Option.map_some, Nat.zero_mul, Nat.zero_add]
    rw [if_neg (by omega), if_neg (by omega)]
    simp [utf8, a3, a4]
  · exact absurd (by simp [esc, h1, h2, h3, h4, h5, h6, h7, h8]) (h c)

theorem esc_single (c x : UInt8) (h : esc c = [x]) : x = c ∧ c ≠ 34 ∧ c ≠ 92 := by
  by_cases h1 : c = 34; · subst h1; simp [esc] at h
  by_cases h2 : c = 92; · subst h2; simp [esc] at h
  by_cases h3 : c = 8; · subst h3; simp [esc] at h
  by_cases h4 : c = 12; · subst h4; simp [esc] at h
  by_cases h5 : c = 10; · subst h5; simp [esc] at h
  by_cases h6 : c = 13; · subst h6; simp [esc] at h
  by_cases h7 : c = 9; · subst h7; simp [esc] at h
  by_cases h8 : c < 32
  · simp [esc, h1, h2, h3, h4, h5, h6, h7, h8] at h
  · simp [esc, h1, h2, h3, h4, h5, h6, h7, h8] at h; exact ⟨h.symm, h1, h2⟩

theorem stringBody_esc (r : Bytes) : ∀ (s : Bytes) (n : Nat), s.length < n → stringBody n (s.flatMap esc ++ 34 :: r) = some (s, r)
  | [], n, h => by
    obtain ⟨m, rfl⟩ : ∃ m, n = m + 1 := ⟨n - 1, by simp at h; omega⟩
    simp [stringBody]
  | c :: s, n, h => by
    simp only [List.length_cons] at h
    obtain ⟨m, rfl⟩ : ∃ m, n = m + 1 := ⟨n - 1, by omega⟩
    have ih := stringBody_esc r s m (by omega)
    rw [List.flatMap_cons, List.append_assoc]
    by_cases hs : ∃ x, esc c = [x]
    · obtain ⟨x, hx⟩ := hs
      obtain ⟨rfl, h1, h2⟩ := esc_single c x hx
      rw [hx]
      simp only [List.singleton_append, stringBody, if_neg h1, if_neg h2, ih, Option.map_some]
    · obtain ⟨t, ht, hu⟩ := unescape_esc c (s.flatMap esc ++ 34 :: r) (fun x hx => hs ⟨x, hx⟩)
      rw [ht]
      simp only [List.cons_append, stringBody, show ¬ ((92 : UInt8) = 34) by decide, if_false, if_true, hu, Option.bind_some, ih, Option.map_some,
        List.singleton_append, List.nil_append]

theorem esc_length (c : UInt8) : 1 ≤ (esc c).length :=
  allBytes (P := fun c => 1 ≤ (esc c).length) (by decide +kernel) c

theorem flatMap_esc_length : ∀ s : Bytes, s.length ≤ (s.flatMap esc).length
  | [] => by simp
  | c :: s => by
    have h1 := esc_length c
    have h2 := flatMap_esc_length s
    rw [List.flatMap_cons, List.length_append, List.length_cons]; omega

theorem string_quote (s r : Bytes) : string (s.flatMap esc ++ 34 :: r) = some (s, r) := by
  refine stringBody_esc r s _ ?_
  have := flatMap_esc_length s
  rw [List.length_append]; omega

/-! ## White space -/

/-- Only white space. -/
def Blank (s : Bytes) : Prop := ∀ c ∈ s, isWs c = true

theorem skipWs_blank {w : Bytes} (h : Blank w) (s : Bytes) : skipWs (w ++ s) = skipWs s := by
  induction w with
  | nil => rfl
  | cons c w ih =>
    have hc : isWs c = true := h c (by simp)
    rw [List.cons_append, skipWs, List.dropWhile_cons, if_pos hc]
    exact ih fun x hx => h x (List.mem_cons_of_mem _ hx)

theorem skipWs_cons {c : UInt8} (h : isWs c = false) (s : Bytes) : skipWs (c :: s) = c :: s := by
  rw [skipWs, List.dropWhile_cons, if_neg (by simp [h])]

theorem newline_blank (p : Option Nat) : Blank (newline p) := by
  cases p with
  | none => intro c hc; simp [newline] at hc
  | some n =>
    intro c hc
    simp only [newline, List.mem_cons, List.mem_replicate] at hc
    rcases hc with rfl | ⟨_, rfl⟩ <;> decide

/-- Text that a number can be followed by. -/
def Ends (s : Bytes) : Prop := ∀ c, s.head? = some c → isDigit c = false ∧ c ≠ 45 ∧ c ≠ 46 ∧ c ≠ 101 ∧ c ≠ 69

theorem ends_cons {c : UInt8} {s : Bytes} (h : isDigit c = false ∧ c ≠ 45 ∧ c ≠ 46 ∧ c ≠ 101 ∧ c ≠ 69) : Ends (c :: s) := by
  intro d hd; simp at hd; subst hd; exact h

theorem ends_blank {w s : Bytes} (hw : Blank w) (hs : Ends s) : Ends (w ++ s) := by
  cases w with
  | nil => exact hs
  | cons c w =>
    have hc : isWs c = true := hw c (by simp)
    refine ends_cons ?_
    revert hc
    exact allBytes (P := fun c => isWs c = true → isDigit c = false ∧ c ≠ 45 ∧ c ≠ 46 ∧ c ≠ 101 ∧ c ≠ 69) (by decide +kernel) c

/-- The beginning of a value. -/
def Lead (e : Bytes) : Prop := ∃ c s, e = c :: s ∧ isWs c = false ∧ c ≠ 93 ∧ c ≠ 125

theorem lead_skip {e : Bytes} (h : Lead e) (r : Bytes) : skipWs (e ++ r) = e ++ r := by
  obtain ⟨c, s, rfl, hc, _⟩ := h
  exact skipWs_cons hc _

/-! ## Numbers -/

theorem takeWhile_app {p : UInt8 → Bool} {a r : Bytes} (ha : ∀ c ∈ a, p c = true) (hr : ∀ c, r.head? = some c → p c = false) :
    (a ++ r).takeWhile p = a ∧ (a ++ r).dropWhile p = r := by
  induction a with
  | nil =>
    cases r with
    | nil => simp
    | cons c r => simp [hr c rfl]
  | cons c a ih =>
    have hc := ha c (by simp)
    have := ih fun x hx => ha x (List.mem_cons_of_mem _ hx)
    simp [hc, this]

theorem toI64_intDec {i : Int} (h : InI64 i) : toI64 (intDec i) = some i := by
  unfold toI64 intDec
  by_cases hn : i < 0
  · rw [if_pos hn]
    simp only [List.head?_cons, true_or, if_true, List.drop_succ_cons, List.drop_zero]
    rw [if_pos ⟨natDec_ne_nil _, List.all_eq_true.mpr (natDec_digits _)⟩, digitsVal_natDec]
    rw [show -(i.natAbs : Int) = i by omega, if_pos h]
  · rw [if_neg hn]
    obtain ⟨c, cs, hc⟩ : ∃ c cs, natDec i.natAbs = c :: cs := List.exists_cons_of_ne_nil (natDec_ne_nil _)
    have hd : isDigit c = true := natDec_digits i.natAbs c (by rw [hc]; simp)
    have h45 : ¬ ((natDec i.natAbs).head? = some 45) := by rw [hc]; simp; rintro rfl; simp [isDigit] at hd
    have h43 : ¬ ((natDec i.natAbs).head? = some 43) := by rw [hc]; simp; rintro rfl; simp [isDigit] at hd
    simp only [h45, h43, or_self, if_false]
    rw [if_pos ⟨natDec_ne_nil _, List.all_eq_true.mpr (natDec_digits _)⟩, digitsVal_natDec]
    rw [show (i.natAbs : Int) = i by omega, if_pos h]

theorem notInf {c : UInt8} {s : Bytes} (h : c ≠ 73) : consume (ascii "-Infinity") (45 :: c :: s) = none := by
  unfold consume
  rw [if_neg]
  simp [ascii, List.isPrefixOf, show UInt8.ofNat 73 = 73 by rfl]
  intro e; exact absurd e.symm h

theorem notInf' {c : UInt8} {s : Bytes} (h : c ≠ 45) : consume (ascii "-Infinity") (c :: s) = none := by
  unfold consume
  rw [if_neg]
  simp [ascii, List.isPrefixOf]
  intro e; exact absurd e.symm h

/-- A sign and digits. -/
theorem notInf_num {sign ds r : Bytes} (hs : sign = [] ∨ sign = [45]) (hn : ds ≠ []) (hd : ∀ c ∈ ds, isDigit c = true) :
    consume (ascii "-Infinity") (sign ++ (ds ++ r)) = none := by
  obtain ⟨c, cs, rfl⟩ := List.exists_cons_of_ne_nil hn
  have hc := hd c (by simp)
  rcases hs with rfl | rfl
  · refine notInf' ?_; rintro rfl; exact absurd hc (by decide)
  · refine notInf ?_; rintro rfl; exact absurd hc (by decide)

theorem number_int {F : Type} (D : Doubles F) {i : Int} (h : InI64 i) {r : Bytes} (hr : Ends r) : number D (intDec i ++ r) = some (.int i, r) := by
  have hsplit : ∃ sign ds : Bytes, intDec i = sign ++ ds ∧ (sign = [] ∨ sign = [45]) ∧ ds ≠ [] ∧ (∀ c ∈ ds, isDigit c = true) := by
    unfold intDec
    by_cases hn : i < 0
    · exact ⟨[45], natDec i.natAbs, by simp [hn], Or.inr rfl, natDec_ne_nil _, natDec_digits _⟩
    · exact ⟨[], natDec i.natAbs, by simp [hn], Or.inl rfl, natDec_ne_nil _, natDec_digits _⟩
  obtain ⟨sign, ds, he, hs, hn, hd⟩ := hsplit
  have hinf : consume (ascii "-Infinity") (intDec i ++ r) = none := by rw [he, List.append_assoc]; exact notInf_num hs hn hd
  have htw := takeWhile_app (p := fun c => isDigit c || c == 45) (a := intDec i) (r := r)
    (by
      rw [he]; intro c hc
      rcases List.mem_append.mp hc with hc | hc
      · rcases hs with rfl | rfl
        · simp at hc
        · simp at hc; subst hc; decide
      · simp [hd c hc])
    (by intro c hc; have := hr c hc; simp [this.1, this.2.1])
  unfold number
  rw [hinf]
  simp only [htw.1, htw.2]
  rw [if_neg (by
    rintro ⟨h1, h2⟩
    rw [he] at h2
    rcases hs with rfl | rfl
    · have hl : ds.length ≠ 0 := by simpa using hn
      rw [he] at h1
      obtain ⟨c, cs, rfl⟩ := List.exists_cons_of_ne_nil hn
      simp at h1; subst h1; exact absurd (hd 45 (by simp)) (by decide)
    · have hl : ds.length ≠ 0 := by simpa using hn
      simp at h2; omega)]
  rw [if_neg (fun hc => (hr _ hc).2.2.1 rfl), if_neg, toI64_intDec h]; · rfl
  rintro (hc | hc)
  · exact (hr _ hc).2.2.2.1 rfl
  · exact (hr _ hc).2.2.2.2 rfl

theorem digit_facts (c : UInt8) : isDigit c = true → c ≠ 45 ∧ c ≠ 46 ∧ c ≠ 101 ∧ c ≠ 69 ∧ c ≠ 43 ∧ isWs c = false ∧ c ≠ 93 ∧ c ≠ 125 ∧ c ≠ 91 ∧ c ≠ 123 ∧ c ≠ 34 :=
  allBytes (P := fun c => isDigit c = true → c ≠ 45 ∧ c ≠ 46 ∧ c ≠ 101 ∧ c ≠ 69 ∧ c ≠ 43 ∧ isWs c = false ∧ c ≠ 93 ∧ c ≠ 125 ∧ c ≠ 91 ∧ c ≠ 123 ∧ c ≠ 34) (by decide +kernel) c

theorem exponent_none {F : Type} (D : Doubles F) {num r : Bytes} {d : F} (hd : D.read num = some d) (hr : Ends r) :
    exponent D num r = some (.dbl d, r) := by
  cases r with
  | nil => simp [exponent, hd]
  | cons c r =>
    have := hr c rfl
    simp [exponent, hd, this.2.2.2.1, this.2.2.2.2]

theorem exponent_some {F : Type} (D : Doubles F) {num r s xs : Bytes} {e : UInt8} {d : F} (he : e = 101 ∨ e = 69)
    (hs : s = [] ∨ s = [43] ∨ s = [45]) (hn : xs ≠ []) (hx : ∀ c ∈ xs, isDigit c = true)
    (hd : D.read (num ++ e :: (s ++ xs)) = some d) (hr : Ends r) :
    exponent D num (e :: (s ++ xs) ++ r) = some (.dbl d, r) := by
  have htw := takeWhile_app (p := isDigit) (a := xs) (r := r) hx (fun c hc => (hr c hc).1)
  have hsplit : (if (s ++ (xs ++ r)).head? = some 43 ∨ (s ++ (xs ++ r)).head? = some 45 then (s ++ (xs ++ r)).take 1 else []) = s ∧
      (if (s ++ (xs ++ r)).head? = some 43 ∨ (s ++ (xs ++ r)).head? = some 45 then (s ++ (xs ++ r)).drop 1 else s ++ (xs ++ r)) = xs ++ r := by
    rcases hs with rfl | rfl | rfl
    · obtain ⟨x, ys, rfl⟩ := List.exists_cons_of_ne_nil hn
      have := digit_facts x (hx x (by simp))
      simp [this.1, this.2.2.2.2.1]
    · simp
    · simp
  simp only [List.cons_append, List.append_assoc, exponent, if_pos he]
  rw [hsplit.1, hsplit.2, htw.1, htw.2, hd]
  rfl

theorem number_real {F : Type} (D : Doubles F) {t : Bytes} {d : F} (h : RealText t) (hd : D.read t = some d) {r : Bytes} (hr : Ends r) :
    number D (t ++ r) = some (.dbl d, r) := by
  obtain ⟨sign, ds, frac, ex, he, hs, hn, hds, hf, hx, hne⟩ := h.shape
  have hinf : consume (ascii "-Infinity") (t ++ r) = none := by
    rw [he, List.append_assoc, List.append_assoc]; exact notInf_num hs hn hds
  have hsd : ∀ c ∈ sign ++ ds, (isDigit c || c == 45) = true := by
    intro c hc
    rcases List.mem_append.mp hc with hc | hc
    · rcases hs with rfl | rfl
      · simp at hc
      · simp at hc; subst hc; decide
    · simp [hds c hc]
  have hlen : ¬ ((t ++ r).head? = some 45 ∧ (sign ++ ds).length < 2) := by
    rintro ⟨h1, h2⟩
    have hl : ds.length ≠ 0 := by simpa using hn
    rcases hs with rfl | rfl
    · obtain ⟨c, cs, rfl⟩ := List.exists_cons_of_ne_nil hn
      rw [he] at h1
      simp at h1; subst h1; exact absurd (hds 45 (by simp)) (by decide)
    · simp at h2; omega
  unfold number
  rw [hinf]
  rcases hf with rfl | ⟨fs, rfl, hfs⟩
  · rcases hx with rfl | ⟨e, s, xs, rfl, hee, hss, hxn, hxs⟩
    · simp at hne
    · have htw := takeWhile_app (p := fun c => isDigit c || c == 45) (a := sign ++ ds) (r := e :: (s ++ xs) ++ r) hsd
        (by intro c hc; simp at hc; subst hc; rcases hee with rfl | rfl <;> decide)
      have ht : t ++ r = (sign ++ ds) ++ (e :: (s ++ xs) ++ r) := by rw [he]; simp
      rw [ht] at hlen ⊢
      simp only [htw.1, htw.2, if_neg hlen]
      rw [if_neg (by rcases hee with rfl | rfl <;> simp), if_pos (by rcases hee with rfl | rfl <;> simp)]
      refine exponent_some D hee hss hxn hxs ?_ hr
      rw [← hd, he]; simp
  · have htw := takeWhile_app (p := fun c => isDigit c || c == 45) (a := sign ++ ds) (r := 46 :: (fs ++ (ex ++ r))) hsd
      (by intro c hc; simp at hc; subst hc; decide)
    have ht : t ++ r = (sign ++ ds) ++ (46 :: (fs ++ (ex ++ r))) := by rw [he]; simp
    have hex : ∀ c, (ex ++ r).head? = some c → isDigit c = false := by
      intro c hc
      rcases hx with rfl | ⟨e, s, xs, rfl, hee, _⟩
      · exact (hr c hc).1
      · simp at hc; subst hc; rcases hee with rfl | rfl <;> decide
    have htw2 := takeWhile_app (p := isDigit) (a := fs) (r := ex ++ r) hfs hex
    rw [ht] at hlen ⊢
    simp only [htw.1, htw.2, if_neg hlen]
    rw [if_pos (by simp)]
    simp only [List.drop_succ_cons, List.drop_zero, htw2.1, htw2.2]
    rcases hx with rfl | ⟨e, s, xs, rfl, hee, hss, hxn, hxs⟩
    · refine exponent_none D ?_ hr
      rw [← hd, he]; simp
    · refine exponent_some D hee hss hxn hxs ?_ hr
      rw [← hd, he]; simp

/-! ## Lists and objects -/

/-- A reader takes the text for the value, whatever follows. -/
def Reads {F : Type} (pv : Bytes → Option (Dyn F × Bytes)) (e : Bytes) (v : Dyn F) : Prop := Lead e ∧ ∀ r, Ends r → pv (e ++ r) = some (v, r)

theorem elems_reads {F : Type} {pv : Bytes → Option (Dyn F × Bytes)} {nl nl' : Bytes} (hnl : Blank nl) (hnl' : Blank nl') (r : Bytes) :
    ∀ {es : List Bytes} {vs : List (Dyn F)}, All2 (Reads pv) es vs → es ≠ [] → ∀ n, es.length ≤ n →
      elems pv n (commas nl es ++ (nl' ++ 93 :: r)) = some (vs, r)
  | _, _, .nil, h, _, _ => absurd rfl h
  | [e], _, .cons (b := v) h1 .nil, _, n, hn => by
    obtain ⟨m, rfl⟩ : ∃ m, n = m + 1 := ⟨n - 1, by simp at hn; omega⟩
    have h2 := h1.2 (nl' ++ 93 :: r) (ends_blank hnl' (ends_cons (by decide)))
    simp only [commas, elems, h2, Option.bind_some, skipWs_blank hnl', skipWs_cons (show isWs 93 = false by decide)]
    simp
  | e :: f :: es, _, .cons (b := v) h1 (.cons (b := w) h2 ht), _, n, hn => by
    obtain ⟨m, rfl⟩ : ∃ m, n = m + 1 := ⟨n - 1, by simp at hn; omega⟩
    have ih := elems_reads hnl hnl' r (All2.cons h2 ht) (by simp) m (by simp at hn ⊢; omega)
    have hc : commas nl (e :: f :: es) = e ++ 44 :: (nl ++ commas nl (f :: es)) := rfl
    have h3 := h1.2 (44 :: (nl ++ commas nl (f :: es)) ++ (nl' ++ 93 :: r)) (ends_cons (by decide))
    rw [hc, List.append_assoc, elems, h3]
    simp only [Option.bind_some, List.cons_append, skipWs_cons (show isWs 44 = false by decide), if_true, List.append_assoc, skipWs_blank hnl]
    have hl : Lead (commas nl (f :: es)) := by
      obtain ⟨c, s, rfl, hl⟩ := h2.1
      cases es with
      | nil => exact ⟨c, s, rfl, hl⟩
      | cons g es => exact ⟨c, _, rfl, hl⟩
    rw [lead_skip hl, ih]
    rfl

/-- Enter the entries one by one. -/
def insertAll {F : Type} : List (Bytes × Dyn F) → List (Bytes × Dyn F) → List (Bytes × Dyn F)
  | acc, [] => acc
  | acc, (k, v) :: l => insertAll (insert k v acc) l

theorem insert_new {F : Type} (k : Bytes) (v : Dyn F) : ∀ (l : List (Bytes × Dyn F)), k ∉ l.map (·.1) → insert k v l = l ++ [(k, v)]
  | [], _ => rfl
  | (k', v') :: l, h => by
    simp only [List.map_cons, List.mem_cons, not_or] at h
    rw [insert, if_neg (fun e => h.1 e.symm), insert_new k v l h.2]; rfl

theorem insertAll_nodup {F : Type} : ∀ (l acc : List (Bytes × Dyn F)), ((acc ++ l).map (·.1)).Nodup → insertAll acc l = acc ++ l
  | [], acc, _ => by simp [insertAll]
  | (k, v) :: l, acc, h => by
    have hk : k ∉ acc.map (·.1) := by
      rw [List.map_append, List.nodup_append] at h
      intro hk
      exact h.2.2 k hk k (by simp) rfl
    rw [insertAll, insert_new k v acc hk, insertAll_nodup l _ (by simpa using h)]
    simp

/-- An entry: its key, and a text read as its value. -/
def ReadsEntry {F : Type} (pv : Bytes → Option (Dyn F × Bytes)) (p : Option Nat) (e : Bytes) (kv : Bytes × Dyn F) : Prop :=
  ∃ t, e = quote kv.1 ++ (colon p ++ t) ∧ Reads pv t kv.2

theorem quote_app (k r : Bytes) : quote k ++ r = 34 :: (k.flatMap esc ++ 34 :: r) := by simp [quote]

theorem colon_skip (p : Option Nat) (s : Bytes) : ∃ b, colon p ++ s = 58 :: (b ++ s) ∧ Blank b := by
  cases p with
  | none => exact ⟨[], rfl, fun c hc => by simp at hc⟩
  | some n => exact ⟨[32], rfl, fun c hc => by simp at hc; subst hc; decide⟩

theorem members_reads {F : Type} {pv : Bytes → Option (Dyn F × Bytes)} {nl nl' : Bytes} (p : Option Nat) (hnl : Blank nl) (hnl' : Blank nl') (r : Bytes) :
    ∀ {es : List Bytes} {kvs : List (Bytes × Dyn F)}, All2 (ReadsEntry pv p) es kvs → es ≠ [] → ∀ n acc, es.length ≤ n →
      members pv n acc (commas nl es ++ (nl' ++ 125 :: r)) = some (insertAll acc kvs, r)
  | _, _, .nil, h, _, _, _ => absurd rfl h
  | [e], _, .cons (b := (k, v)) h1 .nil, _, n, acc, hn => by
    obtain ⟨m, rfl⟩ : ∃ m, n = m + 1 := ⟨n - 1, by simp at hn; omega⟩
    obtain ⟨t, rfl, hl, ht⟩ := h1
    have h2 := ht (nl' ++ 125 :: r) (ends_blank hnl' (ends_cons (by decide)))
    obtain ⟨b, hb, hbb⟩ := colon_skip p (t ++ (nl' ++ 125 :: r))
    simp only [commas, List.append_assoc]
    rw [quote_app, members, if_neg (by simp), string_quote]
    simp only [Option.bind_some, hb, skipWs_cons (show isWs 58 = false by decide), ne_eq, not_true_eq_false, if_false, skipWs_blank hbb, lead_skip hl, h2,
      skipWs_blank hnl', skipWs_cons (show isWs 125 = false by decide), show ¬ ((125 : UInt8) = 44) by decide, if_true, insertAll]
  | e :: f :: es, _, .cons (b := (k, v)) h1 (.cons (b := w) h2 hes), _, n, acc, hn => by
    obtain ⟨m, rfl⟩ : ∃ m, n = m + 1 := ⟨n - 1, by simp at hn; omega⟩
    have ih := members_reads p hnl hnl' r (All2.cons h2 hes) (by simp) m (insert k v acc) (by simp at hn ⊢; omega)
    obtain ⟨t, rfl, hl, ht⟩ := h1
    have hc : commas nl ((quote k ++ (colon p ++ t)) :: f :: es) = (quote k ++ (colon p ++ t)) ++ 44 :: (nl ++ commas nl (f :: es)) := rfl
    have h3 := ht (44 :: (nl ++ commas nl (f :: es)) ++ (nl' ++ 125 :: r)) (ends_cons (by decide))
    obtain ⟨b, hb, hbb⟩ := colon_skip p (t ++ (44 :: (nl ++ commas nl (f :: es)) ++ (nl' ++ 125 :: r)))
    have hlead : Lead (commas nl (f :: es)) := by
      obtain ⟨t', rfl, _⟩ := h2
      rw [quote_app]
      cases es with
      | nil => exact ⟨34, _, rfl, by decide⟩
      | cons g es => exact ⟨34, _, rfl, by decide⟩
    rw [hc]
    simp only [List.append_assoc] at hb h3 ⊢
    rw [quote_app, members, if_neg (by simp), string_quote]
    simp only [Option.bind_some, hb, skipWs_cons (show isWs 58 = false by decide), ne_eq, not_true_eq_false, if_false, skipWs_blank hbb, lead_skip hl, h3]
    simp only [List.cons_append, skipWs_cons (show isWs 44 = false by decide), if_true, List.append_assoc, skipWs_blank hnl]
    rw [lead_skip hlead, ih]
    rfl

/-! ## Values -/

theorem array_reads {F : Type} {pv : Bytes → Option (Dyn F × Bytes)} (p : Option Nat) {es : List Bytes} {vs : List (Dyn F)}
    (h : All2 (Reads pv) es vs) (r : Bytes) : ∃ t, bracket 91 93 p es = 91 :: t ∧ array pv (t ++ r) = some (.arr vs, r) := by
  cases h with
  | nil => exact ⟨[93], rfl, by simp [array, skipWs_cons (show isWs 93 = false by decide)]⟩
  | @cons e v es vs h1 hs =>
    refine ⟨_, by rw [bracket, if_neg (by simp)], ?_⟩
    have hl : ∃ c s, commas (newline (deeper p)) (e :: es) = c :: s ∧ isWs c = false ∧ c ≠ 93 ∧ c ≠ 125 := by
      obtain ⟨c, s, rfl, hl⟩ := h1.1
      cases es with
      | nil => exact ⟨c, s, rfl, hl⟩
      | cons g es => exact ⟨c, _, rfl, hl⟩
    have hel := fun n hn => elems_reads (newline_blank (deeper p)) (newline_blank p) r (All2.cons h1 hs) (by simp) n hn
    have hlen : (e :: es).length ≤ (commas (newline (deeper p)) (e :: es)).length := by
      clear hel hl
      have : ∀ {es : List Bytes} {vs : List (Dyn F)}, All2 (Reads pv) es vs → es.length ≤ (commas (newline (deeper p)) es).length := by
        intro es vs h
        induction h with
        | nil => simp
        | @cons e v es vs h1 hs ih =>
          obtain ⟨c, s, rfl, _⟩ := h1.1
          cases es with
          | nil => simp [commas]
          | cons g es =>
            have hc : commas (newline (deeper p)) ((c :: s) :: g :: es) = (c :: s) ++ 44 :: (newline (deeper p) ++ commas (newline (deeper p)) (g :: es)) := rfl
            rw [hc]; simp only [List.length_append, List.length_cons] at ih ⊢; omega
      exact this (All2.cons h1 hs)
    obtain ⟨c, s, hc, hw, h93, h125⟩ := hl
    unfold array
    simp only [List.append_assoc, skipWs_blank (newline_blank _)]
    rw [show [93] ++ r = 93 :: r from rfl, hc, List.cons_append, skipWs_cons hw]
    simp only [if_neg h93]
    rw [← List.cons_append, ← hc, hel _ (by simp only [List.length_append, hc, List.length_cons] at hlen ⊢; omega)]
    rfl

theorem object_reads_all {F : Type} {pv : Bytes → Option (Dyn F × Bytes)} (p : Option Nat) {es : List Bytes} {kvs : List (Bytes × Dyn F)}
    (h : All2 (ReadsEntry pv (deeper p)) es kvs) (r : Bytes) :
    ∃ t, bracket 123 125 p es = 123 :: t ∧ object pv (t ++ r) = some (.obj (insertAll [] kvs), r) := by
  cases h with
  | nil => exact ⟨[125], rfl, by simp [object, insertAll, skipWs_cons (show isWs 125 = false by decide)]⟩
  | @cons e v es vs h1 hs =>
    refine ⟨_, by rw [bracket, if_neg (by simp)], ?_⟩
    have hl : ∃ s, commas (newline (deeper p)) (e :: es) = 34 :: s := by
      obtain ⟨t, rfl, _⟩ := h1
      cases es with
      | nil => exact ⟨_, rfl⟩
      | cons g es => exact ⟨_, rfl⟩
    have hel := fun n hn => members_reads (deeper p) (newline_blank (deeper p)) (newline_blank p) r (All2.cons h1 hs) (by simp) n [] hn
    have hlen : (e :: es).length ≤ (commas (newline (deeper p)) (e :: es)).length := by
      clear hel hl
      have : ∀ {es : List Bytes} {vs : List (Bytes × Dyn F)}, All2 (ReadsEntry pv (deeper p)) es vs → es.length ≤ (commas (newline (deeper p)) es).length := by
        intro es vs h
        induction h with
        | nil => simp
        | @cons e v es vs h1 hs ih =>
          obtain ⟨t, rfl, _⟩ := h1
          cases es with
          | nil => simp [commas, quote]
          | cons g es =>
            have hc : commas (newline (deeper p)) ((quote v.1 ++ (colon (deeper p) ++ t)) :: g :: es) = (quote v.1 ++ (colon (deeper p) ++ t)) ++ 44 :: (newline (deeper p) ++ commas (newline (deeper p)) (g :: es)) := rfl
            rw [hc]; simp only [List.length_append, List.length_cons] at ih ⊢; omega
      exact this (All2.cons h1 hs)
    obtain ⟨s, hc⟩ := hl
    unfold object
    simp only [List.append_assoc, skipWs_blank (newline_blank _)]
    rw [show [125] ++ r = 125 :: r from rfl, hc, List.cons_append, skipWs_cons (show isWs 34 = false by decide)]
    simp only [if_neg (show ¬ ((34 : UInt8) = 125) by decide)]
    rw [← List.cons_append, ← hc, hel _ (by simp only [List.length_append, hc, List.length_cons] at hlen ⊢; omega)]
    rfl

theorem object_reads {F : Type} {pv : Bytes → Option (Dyn F × Bytes)} (p : Option Nat) {es : List Bytes} {kvs : List (Bytes × Dyn F)}
    (h : All2 (ReadsEntry pv (deeper p)) es kvs) (hn : (kvs.map (·.1)).Nodup) (r : Bytes) :
    ∃ t, bracket 123 125 p es = 123 :: t ∧ object pv (t ++ r) = some (.obj kvs, r) := by
  have := object_reads_all p h r
  rwa [insertAll_nodup _ [] (by simpa using hn)] at this

theorem All2.perm {α β : Type} {R : α → β → Prop} {l l' : List α} (hp : l.Perm l') : ∀ {m : List β}, All2 R l m → ∃ m', m.Perm m' ∧ All2 R l' m' := by
  induction hp with
  | nil => intro m h; cases h; exact ⟨[], .nil, .nil⟩
  | cons x _ ih =>
    intro m h; cases h with
    | cons h1 h2 => obtain ⟨m', hm, h3⟩ := ih h2; exact ⟨_ :: m', hm.cons _, .cons h1 h3⟩
  | swap x y l =>
    intro m h; cases h with
    | cons h1 h2 => cases h2 with
      | cons h3 h4 => exact ⟨_, .swap _ _ _, .cons h3 (.cons h1 h4)⟩
  | trans _ _ ih1 ih2 =>
    intro m h
    obtain ⟨m1, hp1, h1⟩ := ih1 h
    obtain ⟨m2, hp2, h2⟩ := ih2 h1
    exact ⟨m2, hp1.trans hp2, h2⟩

/-- The value is read, up to order. -/
def Back {F : Type} (pv : Bytes → Option (Dyn F × Bytes)) (e : Bytes) (j : Dyn F) : Prop := ∃ v, Reads pv e v ∧ Same j v

theorem back_list {F : Type} {pv : Bytes → Option (Dyn F × Bytes)} {es : List Bytes} {l : List (Dyn F)} (h : All2 (Back pv) es l) :
    ∃ vs, All2 (Reads pv) es vs ∧ SameList l vs := by
  induction h with
  | nil => exact ⟨[], .nil, .nil⟩
  | cons h1 _ ih =>
    obtain ⟨v, h2, h3⟩ := h1
    obtain ⟨vs, h4, h5⟩ := ih
    exact ⟨v :: vs, .cons h2 h4, .cons h3 h5⟩

theorem back_entries {F : Type} {pv : Bytes → Option (Dyn F × Bytes)} {p : Option Nat} {es : List Bytes} {l : List (Bytes × Dyn F)}
    (h : All2 (fun e kv => ∃ t, e = quote kv.1 ++ (colon p ++ t) ∧ Back pv t kv.2) es l) :
    ∃ vs : List (Bytes × Dyn F), All2 (ReadsEntry pv p) es vs ∧ SameEntries l vs ∧ vs.map (·.1) = l.map (·.1) := by
  induction h with
  | nil => exact ⟨[], .nil, .nil, rfl⟩
  | @cons e kv es l h1 _ ih =>
    obtain ⟨t, rfl, v, h2, h3⟩ := h1
    obtain ⟨vs, h4, h5, h6⟩ := ih
    exact ⟨(kv.1, v) :: vs, .cons ⟨t, rfl, h2⟩ h4, .cons h3 h5, by simp [h6]⟩

theorem number_first {F : Type} (D : Doubles F) (d : Nat) {e : Bytes} {v : Dyn F} (hne : e ≠ [])
    (hc : ∀ c, e.head? = some c → c = 45 ∨ isDigit c = true) (h : ∀ r, Ends r → number D (e ++ r) = some (v, r)) : Reads (value D (d + 1)) e v := by
  obtain ⟨c, s, rfl⟩ := List.exists_cons_of_ne_nil hne
  have hc' := hc c rfl
  have hf : isWs c = false ∧ c ≠ 93 ∧ c ≠ 125 ∧ c ≠ 91 ∧ c ≠ 123 ∧ c ≠ 34 := by
    rcases hc' with rfl | hd
    · decide
    · have := digit_facts c hd; exact ⟨this.2.2.2.2.2.1, this.2.2.2.2.2.2.1, this.2.2.2.2.2.2.2.1, this.2.2.2.2.2.2.2.2.1, this.2.2.2.2.2.2.2.2.2.1, this.2.2.2.2.2.2.2.2.2.2⟩
  refine ⟨⟨c, s, rfl, hf.1, hf.2.1, hf.2.2.1⟩, fun r hr => ?_⟩
  rw [List.cons_append, value, skipWs_cons hf.1]
  simp only [if_neg hf.2.2.2.1, if_neg hf.2.2.2.2.1, if_neg hf.2.2.2.2.2]
  rw [if_pos (by rcases hc' with h | h <;> simp [h]), ← List.cons_append, h r hr]

theorem word_reads {F : Type} (D : Doubles F) (d : Nat) {e : Bytes} {v : Dyn F} (c : UInt8) (s : Bytes) (he : e = c :: s)
    (hf : isWs c = false ∧ c ≠ 93 ∧ c ≠ 125 ∧ c ≠ 91 ∧ c ≠ 123 ∧ c ≠ 34 ∧ c ≠ 45 ∧ isDigit c = false) (h : ∀ r, word D (e ++ r) = some (v, r)) :
    Reads (value D (d + 1)) e v := by
  subst he
  refine ⟨⟨c, s, rfl, hf.1, hf.2.1, hf.2.2.1⟩, fun r _ => ?_⟩
  rw [List.cons_append, value, skipWs_cons hf.1]
  simp only [if_neg hf.2.2.2.1, if_neg hf.2.2.2.2.1, if_neg hf.2.2.2.2.2.1]
  rw [if_neg (by simp [hf.2.2.2.2.2.2.1, hf.2.2.2.2.2.2.2]), ← List.cons_append, h r]

mutual
theorem value_dump {F : Type} (D : Doubles F) {ord : List Bytes → List Bytes} (hord : ∀ l, (ord l).Perm l) :
    ∀ (j : Dyn F) (p : Option Nat) (d : Nat) (e : Bytes), Fine D j → depth j ≤ d → dump D ord p j = some e → Back (value D d) e j
  | j, p, 0, e, _, hd, _ => by cases j <;> simp [depth] at hd
  | .null, p, d + 1, e, _, _, h => by
    simp only [dump, Option.some.injEq] at h; subst h
    exact ⟨.null, word_reads D d 110 (ascii "ull") (by decide +kernel) (by decide) (fun r => by simp [word, consume, ascii, List.isPrefixOf]), .null⟩
  | .bool b, p, d + 1, e, _, _, h => by
    simp only [dump, Option.some.injEq] at h; subst h
    cases b
    · exact ⟨.bool false, word_reads D d 102 (ascii "alse") (by decide +kernel) (by decide) (fun r => by simp [word, consume, ascii, List.isPrefixOf]), .bool _⟩
    · exact ⟨.bool true, word_reads D d 116 (ascii "rue") (by decide +kernel) (by decide) (fun r => by simp [word, consume, ascii, List.isPrefixOf]), .bool _⟩
  | .int i, p, d + 1, e, hf, _, h => by
    simp only [dump, Option.some.injEq] at h; subst h
    simp only [Fine] at hf
    refine ⟨.int i, number_first D d ?_ ?_ (fun r hr => number_int D hf hr), .int i⟩
    · unfold intDec; split
      · simp
      · exact natDec_ne_nil _
    · intro c hc
      unfold intDec at hc; split at hc
      · simp at hc; exact Or.inl hc.symm
      · exact Or.inr (natDec_digits _ c (List.mem_of_mem_head? hc))
  | .dbl x, p, d + 1, e, hf, _, h => by
    simp only [Fine] at hf
    simp only [dump] at h
    split at h
    · simp only [Option.some.injEq] at h; subst h
      obtain ⟨sign, ds, frac, ex, he, hs, hn, hds, _⟩ := hf.1.shape
      obtain ⟨c, cs, rfl⟩ := List.exists_cons_of_ne_nil hn
      refine ⟨.dbl x, number_first D d ?_ ?_ (fun r hr => number_real D hf.1 hf.2 hr), .dbl x⟩
      · rw [he]; simp
      · intro c' hc'
        rw [he] at hc'
        rcases hs with rfl | rfl
        · simp at hc'; subst hc'; exact Or.inr (hds _ (by simp))
        · simp at hc'; exact Or.inl hc'.symm
    · simp at h
  | .str s, p, d + 1, e, _, _, h => by
    simp only [dump, Option.some.injEq] at h; subst h
    refine ⟨.str s, ⟨⟨34, _, rfl, by decide⟩, fun r _ => ?_⟩, .str s⟩
    rw [quote_app, value, skipWs_cons (by decide)]
    simp only [if_neg (show ¬ ((34 : UInt8) = 91) by decide), if_neg (show ¬ ((34 : UInt8) = 123) by decide), if_true, string_quote]
    rfl
  | .arr l, p, d + 1, e, hf, hd, h => by
    simp only [dump, Option.map_eq_some_iff] at h
    obtain ⟨es, hes, rfl⟩ := h
    simp only [Fine] at hf
    simp only [depth] at hd
    obtain ⟨vs, h1, h2⟩ := back_list (list_dump D hord l (deeper p) d es hf (by omega) hes)
    refine ⟨.arr vs, ⟨?_, fun r _ => ?_⟩, .arr h2⟩
    · obtain ⟨t, ht, _⟩ := array_reads p h1 []
      exact ⟨91, t, ht, by decide⟩
    · obtain ⟨t, ht, ha⟩ := array_reads p h1 r
      rw [ht, List.cons_append, value, skipWs_cons (by decide)]
      simp only [if_true, ha]
  | .obj l, p, d + 1, e, hf, hd, h => by
    simp only [dump, Option.map_eq_some_iff] at h
    obtain ⟨es, hes, rfl⟩ := h
    simp only [Fine] at hf
    simp only [depth] at hd
    have h0 := entries_dump D hord l (deeper p) d es hf.2 (by omega) hes
    obtain ⟨l', hp, h0'⟩ := h0.perm (hord es).symm
    obtain ⟨vs, h1, h2, hk⟩ := back_entries h0'
    have hnd : (vs.map (·.1)).Nodup := by rw [hk]; exact (hp.map _).nodup_iff.mp hf.1
    refine ⟨.obj vs, ⟨?_, fun r _ => ?_⟩, .obj hp h2⟩
    · obtain ⟨t, ht, _⟩ := object_reads p h1 hnd []
      exact ⟨123, t, ht, by decide⟩
    · obtain ⟨t, ht, ha⟩ := object_reads p h1 hnd r
      rw [ht, List.cons_append, value, skipWs_cons (by decide)]
      simp only [if_neg (show ¬ ((123 : UInt8) = 91) by decide), if_true, ha]
theorem list_dump {F : Type} (D : Doubles F) {ord : List Bytes → List Bytes} (hord : ∀ l, (ord l).Perm l) :
    ∀ (l : List (Dyn F)) (p : Option Nat) (d : Nat) (es : List Bytes), FineList D l → depthList l ≤ d → dumpList D ord p l = some es → All2 (Back (value D d)) es l
  | [], p, d, es, _, _, h => by simp only [dumpList, Option.some.injEq] at h; subst h; exact .nil
  | j :: l, p, d, es, hf, hd, h => by
    simp only [dumpList, Option.bind_eq_some_iff, Option.map_eq_some_iff] at h
    obtain ⟨e, he, es', hes, rfl⟩ := h
    simp only [FineList] at hf
    simp only [depthList] at hd
    exact .cons (value_dump D hord j p d e hf.1 (by omega) he) (list_dump D hord l p d es' hf.2 (by omega) hes)
theorem entries_dump {F : Type} (D : Doubles F) {ord : List Bytes → List Bytes} (hord : ∀ l, (ord l).Perm l) :
    ∀ (l : List (Bytes × Dyn F)) (p : Option Nat) (d : Nat) (es : List Bytes), FineEntries D l → depthEntries l ≤ d → dumpEntries D ord p l = some es →
      All2 (fun e kv => ∃ t, e = quote kv.1 ++ (colon p ++ t) ∧ Back (value D d) t kv.2) es l
  | [], p, d, es, _, _, h => by simp only [dumpEntries, Option.some.injEq] at h; subst h; exact .nil
  | (k, j) :: l, p, d, es, hf, hd, h => by
    simp only [dumpEntries, Option.bind_eq_some_iff, Option.map_eq_some_iff] at h
    obtain ⟨e, he, es', hes, rfl⟩ := h
    simp only [FineEntries] at hf
    simp only [depthEntries] at hd
    exact .cons ⟨e, rfl, value_dump D hord j p d e hf.1 (by omega) he⟩ (entries_dump D hord l p d es' hf.2 (by omega) hes)
end

/-- What `toJson` and `toPrettyJson` write is read by `parseJson` as the same value. -/
theorem parse_dump {F : Type} (D : Doubles F) {ord : List Bytes → List Bytes} (hord : ∀ l, (ord l).Perm l) (j : Dyn F) (p : Option Nat) (e : Bytes)
    (hf : Fine D j) (hd : depth j ≤ maxDepth) (h : dump D ord p j = some e) : ∃ v, parse D e = some v ∧ Same j v := by
  obtain ⟨v, ⟨_, h1⟩, h2⟩ := value_dump D hord j p maxDepth e hf hd h
  refine ⟨v, ?_, h2⟩
  have := h1 [] (fun c hc => by simp at hc)
  rw [List.append_nil] at this
  simp [parse, this, skipWs]

end Json
end Nebula
