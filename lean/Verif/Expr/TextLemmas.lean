import Verif.Expr.TextRead
/-!
# Lemmas about the reader of expression texts
-/
namespace Nebula
namespace Expr

/-! ## Fixed texts -/

theorem lit_app : ∀ (w r : Bytes), lit w (w ++ r) = some r
  | [], _ => rfl
  | a :: w, r => by simp [lit, lit_app w r]

@[simp] theorem lit_nil (s : Bytes) : lit [] s = some s := by cases s <;> rfl
@[simp] theorem lit_end (a : UInt8) (w : Bytes) : lit (a :: w) [] = none := rfl
@[simp] theorem lit_cons (a : UInt8) (w : Bytes) (b : UInt8) (s : Bytes) : lit (a :: w) (b :: s) = if a = b then lit w s else none := rfl

theorem lit_some : ∀ {w s r : Bytes}, lit w s = some r → s = w ++ r
  | [], s, r, h => by simpa using h
  | a :: w, [], r, h => by simp at h
  | a :: w, b :: s, r, h => by
    simp only [lit_cons] at h
    split at h
    · rename_i e; subst e; rw [lit_some h]; rfl
    · cases h

theorem a_null : ascii " IS NULL" = [32, 73, 83, 32, 78, 85, 76, 76] := by decide +kernel
theorem a_nnull : ascii " IS NOT NULL" = [32, 73, 83, 32, 78, 79, 84, 32, 78, 85, 76, 76] := by decide +kernel
theorem a_empty : ascii " IS EMPTY" = [32, 73, 83, 32, 69, 77, 80, 84, 89] := by decide +kernel
theorem a_nempty : ascii " IS NOT EMPTY" = [32, 73, 83, 32, 78, 79, 84, 32, 69, 77, 80, 84, 89] := by decide +kernel
theorem a_plus : ascii "+" = [43] := by decide +kernel
theorem a_minus : ascii "-" = [45] := by decide +kernel
theorem a_mul : ascii "*" = [42] := by decide +kernel
theorem a_div : ascii "/" = [47] := by decide +kernel
theorem a_mod : ascii "%" = [37] := by decide +kernel
theorem a_lt : ascii "<" = [60] := by decide +kernel
theorem a_le : ascii "<=" = [60, 61] := by decide +kernel
theorem a_gt : ascii ">" = [62] := by decide +kernel
theorem a_ge : ascii ">=" = [62, 61] := by decide +kernel
theorem a_eq : ascii "==" = [61, 61] := by decide +kernel
theorem a_ne : ascii "!=" = [33, 61] := by decide +kernel
theorem a_reg : ascii "=~" = [61, 126] := by decide +kernel
theorem a_in : ascii " IN " = [32, 73, 78, 32] := by decide +kernel
theorem a_nin : ascii " NOT IN " = [32, 78, 79, 84, 32, 73, 78, 32] := by decide +kernel
theorem a_con : ascii " CONTAINS " = [32, 67, 79, 78, 84, 65, 73, 78, 83, 32] := by decide +kernel
theorem a_ncon : ascii " NOT CONTAINS " = [32, 78, 79, 84, 32, 67, 79, 78, 84, 65, 73, 78, 83, 32] := by decide +kernel
theorem a_sw : ascii " STARTS WITH " = [32, 83, 84, 65, 82, 84, 83, 32, 87, 73, 84, 72, 32] := by decide +kernel
theorem a_nsw : ascii " NOT STARTS WITH " = [32, 78, 79, 84, 32, 83, 84, 65, 82, 84, 83, 32, 87, 73, 84, 72, 32] := by decide +kernel
theorem a_ew : ascii " ENDS WITH " = [32, 69, 78, 68, 83, 32, 87, 73, 84, 72, 32] := by decide +kernel
theorem a_new : ascii " NOT ENDS WITH " = [32, 78, 79, 84, 32, 69, 78, 68, 83, 32, 87, 73, 84, 72, 32] := by decide +kernel
theorem a_and : ascii " AND " = [32, 65, 78, 68, 32] := by decide +kernel
theorem a_or : ascii " OR " = [32, 79, 82, 32] := by decide +kernel
theorem a_xor : ascii " XOR " = [32, 88, 79, 82, 32] := by decide +kernel
theorem a_not : ascii "!" = [33] := by decide +kernel
theorem a_incr : ascii "++" = [43, 43] := by decide +kernel
theorem a_decr : ascii "--" = [45, 45] := by decide +kernel
theorem a_plusp : ascii "+(" = [43, 40] := by decide +kernel
theorem a_minusp : ascii "-(" = [45, 40] := by decide +kernel
theorem a_notp : ascii "!(" = [33, 40] := by decide +kernel
theorem a_incrp : ascii "++(" = [43, 43, 40] := by decide +kernel
theorem a_decrp : ascii "--(" = [45, 45, 40] := by decide +kernel
theorem a_when : ascii " WHEN " = [32, 87, 72, 69, 78, 32] := by decide +kernel
theorem a_then : ascii " THEN " = [32, 84, 72, 69, 78, 32] := by decide +kernel
theorem a_else : ascii " ELSE " = [32, 69, 76, 83, 69, 32] := by decide +kernel
theorem a_endc : ascii " END" = [32, 69, 78, 68] := by decide +kernel
theorem a_where : ascii " WHERE " = [32, 87, 72, 69, 82, 69, 32] := by decide +kernel
theorem a_bar : ascii " | " = [32, 124, 32] := by decide +kernel
theorem a_quest : ascii " ? " = [32, 63, 32] := by decide +kernel
theorem a_colon : ascii " : " = [32, 58, 32] := by decide +kernel
theorem a_is : ascii " = " = [32, 61, 32] := by decide +kernel
theorem a_comma : ascii ", " = [44, 32] := by decide +kernel
theorem a_dots : ascii ".." = [46, 46] := by decide +kernel
theorem a_case : ascii "CASE" = [67, 65, 83, 69] := by decide +kernel
theorem a_column : ascii "COLUMN[" = ascii "COLUMN" ++ [91] := by decide +kernel
theorem a_path : ascii "PathBuild[" = ascii "PathBuild" ++ [91] := by decide +kernel
theorem a_uuid : ascii "uuid(\"" = ascii "uuid" ++ [40, 34] := by decide +kernel
theorem a_uuid2 : ascii "\")" = [34, 41] := by decide +kernel
theorem a_reduce : ascii "reduce(" = ascii "reduce" ++ [40] := by decide +kernel
theorem a_distinct : ascii "distinct " = ascii "distinct" ++ [32] := by decide +kernel
theorem a_dinput : ascii "$-" = [36, 45] := by decide +kernel
theorem a_dvar : ascii "$" = [36] := by decide +kernel
theorem a_dsrc : ascii "$^" = [36, 94] := by decide +kernel
theorem a_ddst : ascii "$$" = [36, 36] := by decide +kernel

/-! ## Words -/

/-- A text that does not begin with a letter, digit or underscore. -/
def NoWord (r : Bytes) : Prop := ∀ c cs, r = c :: cs → isWord c = false

theorem noWord_nil : NoWord [] := by intro c cs h; cases h
theorem noWord_cons {c : UInt8} (h : isWord c = false) (r : Bytes) : NoWord (c :: r) := by
  intro d ds e; injection e with e1 e2; rw [← e1]; exact h

theorem take_word {p : UInt8 → Bool} : ∀ {w r : Bytes}, (∀ c ∈ w, p c = true) → (∀ c cs, r = c :: cs → p c = false) → (w ++ r).takeWhile p = w ∧ (w ++ r).dropWhile p = r
  | [], [], _, _ => ⟨rfl, rfl⟩
  | [], c :: r, _, h => by simp [h c r rfl]
  | a :: w, r, hw, h => by
    obtain ⟨e1, e2⟩ := take_word (fun c hc => hw c (List.mem_cons_of_mem _ hc)) h
    simp [hw a (List.mem_cons_self ..), e1, e2]

theorem readName_app {w r : Bytes} (hw : IsName w) (hr : NoWord r) : readName (w ++ r) = some (w, r) := by
  obtain ⟨e1, e2⟩ := take_word (Value.name_word hw) hr
  rw [readName, e1, e2, if_pos hw]

theorem readName_none {r : Bytes} (hr : NoWord r) : readName r = none := by
  have := (take_word (w := []) (p := isWord) (by simp) hr).1
  simp only [List.nil_append] at this
  rw [readName, this, if_neg (by simp [IsName])]

theorem dotName_app {w r : Bytes} (hw : IsName w) (hr : NoWord r) : dotName (46 :: (w ++ r)) = some (w, r) := by
  simp [dotName, readName_app hw hr]

theorem number_app {i : Int} {r : Bytes} (hr : NoWord r) : number (intDec i ++ r) = some (i, r) := by
  have hr' : ∀ c cs, r = c :: cs → isDigit c = false := fun c cs h => by
    have := hr c cs h
    cases hd : isDigit c
    · rfl
    · rw [digit_word hd] at this; cases this
  obtain ⟨e1, e2⟩ := take_word (natDec_digits i.natAbs) hr'
  by_cases hneg : i < 0
  · rw [intDec, if_pos hneg]
    simp only [number, List.cons_append, lit_cons, if_true, lit_nil, e1, e2, digitsVal_natDec]
    congr 2; omega
  · rw [intDec, if_neg hneg]
    have h0 : lit [45] (natDec i.natAbs ++ r) = none := by
      cases hc : natDec i.natAbs with
      | nil => exact absurd hc (natDec_ne_nil _)
      | cons c cs =>
        have : c ≠ 45 := digit_ne (natDec_digits i.natAbs c (by rw [hc]; exact List.mem_cons_self ..)) (by decide)
        rw [List.cons_append, lit_cons, if_neg (fun h => this h.symm)]
    simp only [number, h0, e1, e2, digitsVal_natDec]
    congr 2; omega

theorem quoted_app {s r : Bytes} (h : 34 ∉ s) : quoted (s ++ 34 :: r) = some (s, r) := by
  obtain ⟨e1, e2⟩ := take_word (p := fun c => c != 34) (w := s) (r := 34 :: r) (fun c hc => by simp; rintro rfl; exact h hc) (by intro c cs h; simp at h; simp [← h.1])
  simp only [quoted, e1, e2, lit_cons, if_true, lit_nil, Option.map_some]

/-! ## Where an expression ends -/

/-- What can follow an operand: no word, no opening parenthesis or brace. -/
def stops : Bytes → Bool
  | [] => true
  | c :: _ => !isWord c && c != 40 && c != 123

/-- What ends an expression: nothing that could belong to it. -/
def ends : Bytes → Bool
  | [] => true
  | c :: s =>
    if c = 46 then (match s with | 46 :: _ => true | _ => false)
    else if c = 32 then (match s with | 73 :: 83 :: _ => false | _ => true)
    else [41, 44, 93, 125, 43, 45, 42, 47, 37, 60, 62, 61, 33].contains c

theorem stops_noWord {r : Bytes} (h : stops r = true) : NoWord r := by
  intro c cs e; subst e; simp [stops] at h; exact h.1.1

theorem stops_lit {r : Bytes} (h : stops r = true) : lit [40] r = none ∧ lit [123] r = none := by
  cases r with
  | nil => simp
  | cons c cs => simp [stops] at h; simp [Ne.symm h.1.2, Ne.symm h.2]

theorem ends_stops {r : Bytes} (h : ends r = true) : stops r = true := by
  cases r with
  | nil => rfl
  | cons c cs =>
    simp only [ends] at h
    split at h
    · rename_i e; subst e; rfl
    split at h
    · rename_i e; subst e; rfl
    · revert h; simp only [stops]
      exact forall_byte (P := fun c => List.contains [41, 44, 93, 125, 43, 45, 42, 47, 37, 60, 62, 61, 33] c = true → (!isWord c && c != 40 && c != 123) = true) (by decide +kernel) c

theorem ends_dot {r : Bytes} (h : ends r = true) : dotName r = none := by
  cases r with
  | nil => rfl
  | cons c cs =>
    by_cases e : c = 46
    · subst e
      simp only [ends, if_true] at h
      split at h
      · rw [dotName, lit_cons, if_pos rfl, lit_nil, Option.bind_some]; exact readName_none (noWord_cons (by decide) _)
      · cases h
    · simp [dotName, Ne.symm e]

theorem ends_suffix (p : Reader) (e : Expr) {r : Bytes} (h : ends r = true) : suffix p e r = none := by
  unfold suffix
  rw [ends_dot h]
  cases r with
  | nil => simp [testOf, UnOp.behind, a_null, a_nnull, a_empty, a_nempty]
  | cons c cs =>
    simp only
    have h91 : c ≠ 91 := by rintro rfl; simp [ends] at h
    rw [lit_cons, if_neg (Ne.symm h91)]
    simp only [testOf, UnOp.behind, a_null, a_nnull, a_empty, a_nempty]
    by_cases e : c = 32
    · subst e
      cases cs with
      | nil => simp
      | cons d ds =>
        by_cases e2 : d = 73
        · subst e2
          cases ds with
          | nil => simp
          | cons x xs =>
            by_cases e3 : x = 83
            · subst e3; simp [ends] at h
            · simp [Ne.symm e3]
        · simp [Ne.symm e2]
    · simp [Ne.symm e]

/-- The first bytes of texts. -/
def startOk (c : UInt8) : Bool := isWord c || [34, 36, 40, 43, 45, 33, 91, 123].contains c

def Start (t : Bytes) : Prop := ∃ c cs, t = c :: cs ∧ startOk c = true

theorem start_lit {t : Bytes} (h : Start t) {d : UInt8} (hd : startOk d = false) (w r : Bytes) : lit (d :: w) (t ++ r) = none := by
  obtain ⟨c, cs, rfl, hc⟩ := h
  rw [List.cons_append, lit_cons, if_neg]
  rintro rfl; rw [hc] at hd; cases hd

theorem start_name {t : Bytes} (h : IsName t) (r : Bytes) : Start (t ++ r) := by
  cases t with
  | nil => cases h
  | cons c cs => exact ⟨c, cs ++ r, rfl, by simp [startOk, Value.name_word h c (List.mem_cons_self ..)]⟩

/-- The words at the beginning of a text. -/
structure Shape (t w u : Bytes) : Prop where
  eq : t = w ++ u
  word : ∀ c ∈ w, isWord c = true
  free : w ∉ markers ∧ w ≠ ascii "distinct"
  next : ∀ c cs, u = c :: cs → isWord c = false ∧ c ≠ 41 ∧ c ≠ 58 ∧ (c = 32 → w = ascii "CASE" ∨ ∃ v, cs = 73 :: 83 :: v)

theorem shape_other {c : UInt8} {cs : Bytes} (h : [34, 36, 40, 43, 45, 33, 91, 123].contains c = true) : Shape (c :: cs) [] (c :: cs) where
  eq := rfl
  word := by simp
  free := by decide +kernel
  next := by
    intro d ds e
    injection e with e1 e2
    subst e1
    have := forall_byte (P := fun c => List.contains [34, 36, 40, 43, 45, 33, 91, 123] c = true → (isWord c = false ∧ c ≠ 41 ∧ c ≠ 58 ∧ c ≠ 32)) (by decide +kernel) c h
    exact ⟨this.1, this.2.1, this.2.2.1, fun e => absurd e this.2.2.2⟩

theorem shape_app {t w u x : Bytes} (h : Shape t w u) (hx : ∀ c cs, x = c :: cs → isWord c = false ∧ c ≠ 41 ∧ c ≠ 58 ∧ (c = 32 → ∃ v, cs = 73 :: 83 :: v)) : Shape (t ++ x) w (u ++ x) where
  eq := by rw [h.eq, List.append_assoc]
  word := h.word
  free := h.free
  next := by
    cases u with
    | nil =>
      intro c cs e
      obtain ⟨h1, h2, h3, h4⟩ := hx c cs e
      exact ⟨h1, h2, h3, fun e => .inr (h4 e)⟩
    | cons d ds =>
      intro c cs e
      rw [List.cons_append] at e
      injection e with e1 e2
      subst e1
      obtain ⟨h1, h2, h3, h4⟩ := h.next d ds rfl
      refine ⟨h1, h2, h3, fun e => ?_⟩
      rcases h4 e with h4 | ⟨v, h4⟩
      · exact .inl h4
      · exact .inr ⟨v ++ x, by rw [← e2, h4]; rfl⟩

theorem shape_span {t w u r : Bytes} (h : Shape t w u) (hr : NoWord r) : (t ++ r).takeWhile isWord = w ∧ (t ++ r).dropWhile isWord = u ++ r := by
  rw [h.eq, List.append_assoc]
  refine take_word h.word ?_
  cases u with
  | nil => exact hr
  | cons c cs => exact noWord_cons (h.next c cs rfl).1 _

theorem shape_lit {t w u r : Bytes} (h : Shape t w u) {d : UInt8} (hd : d = 41 ∨ d = 58) (hr : lit [d] r = none) : lit [d] (u ++ r) = none := by
  cases u with
  | nil => exact hr
  | cons c cs =>
    obtain ⟨_, h1, h2, _⟩ := h.next c cs rfl
    rw [List.cons_append, lit_cons, if_neg]
    rcases hd with rfl | rfl
    · exact Ne.symm h1
    · exact Ne.symm h2

theorem name_start {w : Bytes} (h : IsName w) : ∃ c cs, w = c :: cs ∧ isWord c = true ∧ c ≠ 34 ∧ c ≠ 36 ∧ c ≠ 40 ∧ c ≠ 91 ∧ c ≠ 123 := by
  cases w with
  | nil => cases h
  | cons c cs =>
    have hc := Value.name_word h c (List.mem_cons_self ..)
    exact ⟨c, cs, rfl, hc, forall_byte (P := fun c => isWord c = true → c ≠ 34 ∧ c ≠ 36 ∧ c ≠ 40 ∧ c ≠ 91 ∧ c ≠ 123) (by decide +kernel) c hc⟩

theorem atom_word (agg : Bytes → Bool) (p : Reader) (n : Nat) {w r : Bytes} (hw : IsName w) (hr : NoWord r) : atom agg p n (w ++ r) = worded agg p n w r := by
  obtain ⟨e1, e2⟩ := take_word (Value.name_word hw) hr
  obtain ⟨c, cs, e, _, h1, h2, h3, h4, h5⟩ := name_start hw
  unfold atom
  rw [e1, e2, if_pos hw]
  rw [e, List.cons_append]
  simp [Ne.symm h1, Ne.symm h2, Ne.symm h3, Ne.symm h4, Ne.symm h5]

theorem opOf_sign {o : BinOp} (ho : Infix o) {t : Bytes} (ht : Start t) (r : Bytes) : opOf (BinOp.sign o ++ (t ++ r)) = some (o, t ++ r) := by
  obtain ⟨c, cs, rfl, hc⟩ := ht
  have h1 : (61 : UInt8) ≠ c := by rintro rfl; revert hc; decide
  cases o <;> first
    | exact absurd rfl ho.1
    | exact absurd rfl ho.2
    | simp [opOf, signs, BinOp.sign, h1, a_plus, a_minus, a_mul, a_div, a_mod, a_lt, a_le, a_gt, a_ge, a_eq, a_ne, a_reg, a_in, a_nin, a_con, a_ncon, a_sw, a_nsw, a_ew, a_new]

theorem logOf_sign (o : LogOp) (r : Bytes) : opOf (LogOp.sign o ++ r) = none ∧ logOf (LogOp.sign o ++ r) = some (o, r) := by
  cases o <;> simp [opOf, logOf, LogOp.sign, signs, BinOp.sign, a_and, a_or, a_xor, a_plus, a_minus, a_mul, a_div, a_mod, a_lt, a_le, a_gt, a_ge, a_eq, a_ne, a_reg, a_in, a_nin, a_con,
    a_ncon, a_sw, a_nsw, a_ew, a_new]

theorem choice_sign (r : Bytes) : opOf (ascii " ? " ++ r) = none ∧ logOf (ascii " ? " ++ r) = none := by
  simp [opOf, logOf, LogOp.sign, signs, BinOp.sign, a_quest, a_and, a_or, a_xor, a_plus, a_minus, a_mul, a_div, a_mod, a_lt, a_le, a_gt, a_ge, a_eq, a_ne, a_reg, a_in, a_nin, a_con,
    a_ncon, a_sw, a_nsw, a_ew, a_new]

theorem sign_ends {o : BinOp} (ho : Infix o) (r : Bytes) : ends (BinOp.sign o ++ r) = true ∧ lit [41] (BinOp.sign o ++ r) = none := by
  cases o <;> first
    | exact absurd rfl ho.1
    | exact absurd rfl ho.2
    | simp [ends, BinOp.sign, a_plus, a_minus, a_mul, a_div, a_mod, a_lt, a_le, a_gt, a_ge, a_eq, a_ne, a_reg, a_in, a_nin, a_con, a_ncon, a_sw, a_nsw, a_ew, a_new]

theorem log_ends (o : LogOp) (r : Bytes) : ends (LogOp.sign o ++ r) = true ∧ lit [41] (LogOp.sign o ++ r) = none := by
  cases o <;> simp [ends, LogOp.sign, a_and, a_or, a_xor]

theorem testOf_behind {o : UnOp} (ho : UnOp.front o = none) (r : Bytes) : testOf (UnOp.behind o ++ r) = some (o, r) ∧ dotName (UnOp.behind o ++ r) = none ∧
    lit [91] (UnOp.behind o ++ r) = none ∧ ∃ v, UnOp.behind o = 32 :: 73 :: 83 :: v := by
  cases o <;> first
    | (simp [UnOp.front] at ho; done)
    | simp [testOf, UnOp.behind, dotName, a_null, a_nnull, a_empty, a_nempty]

theorem unSign_front {o : UnOp} {f : Bytes} (ho : UnOp.front o = some f) (r : Bytes) : unSign (f ++ 40 :: r) = some (o, r) ∧
    ∃ c cs, f = c :: cs ∧ [43, 45, 33].contains c = true := by
  cases o <;> simp only [UnOp.front, Option.some.injEq, reduceCtorEq] at ho <;> subst ho <;>
    simp [unSign, a_plus, a_minus, a_not, a_incr, a_decr, a_plusp, a_minusp, a_notp, a_incrp, a_decrp]

end Expr
end Nebula
