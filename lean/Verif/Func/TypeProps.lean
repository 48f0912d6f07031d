import Verif.Func.Props
/-!
# Properties of the built-in functions: the declared types of results (C83)
-/
namespace Nebula
namespace Func

/-! ## Types -/

theorem matchSigs_mem {ts : List VType} {t : VType} : ∀ {ss : List Fn.Sig}, matchSigs ts ss = some t →
    (ts, t) ∈ ss
  | [], h => by cases h
  | s :: ss, h => by
    unfold matchSigs at h
    split at h
    · rename_i e; injection h with h; subst h; subst e; exact List.mem_cons_self
    · exact List.mem_cons_of_mem _ (matchSigs_mem h)

theorem nullOrEmpty_mem : ∀ {ts : List VType} {t : VType}, nullOrEmpty ts = some t →
    t ∈ ts ∧ (t = .empty ∨ t = .null)
  | [], _, h => by cases h
  | x :: ts, t, h => by
    unfold nullOrEmpty at h
    split at h
    · rename_i e; injection h with h; subst h; exact ⟨List.mem_cons_self, e⟩
    · exact ⟨List.mem_cons_of_mem _ (nullOrEmpty_mem h).1, (nullOrEmpty_mem h).2⟩

theorem typeOf_null {v : Value} (h : typeOf v = .null) : ∃ n, v = .null n := by
  cases v <;> simp [typeOf] at h; exact ⟨_, rfl⟩

/-- The result is a NULL. -/
def NullRes : Res → Prop
  | .val v => typeOf v = .null
  | _ => False

theorem nullRes_iff {r : Res} (h : NullRes r) : ∃ v, r = .val v ∧ typeOf v = .null := by
  cases r <;> first | exact ⟨_, rfl, h⟩ | exact h.elim

theorem bit_null (g : BitVec 64 → BitVec 64 → BitVec 64) (a b : Value) (k : NullType)
    (h : a = .null k ∨ b = .null k) : typeOf (Value.bitOp g a b) = .null := by
  rcases h with h | h <;> subst h
  · rfl
  · cases a <;> rfl

/-- C83 (NULL in, NULL out): a function with declared signatures other than `hash`, called with a NULL
among its arguments, returns a NULL. -/
theorem C83_null (L : FLib) (w : World) (n : Bytes) (args : List Value) (f : Fn)
    (hg : getInternal n args.length = some f) (hs : f.sigs ≠ none) (hh : f ≠ .hash)
    (k : NullType) (hn : Value.null k ∈ args) :
    ∃ v, call L w n args = some (.val v) ∧ typeOf v = .null := by
  obtain ⟨-, h1, h2⟩ := (C82_lookup n args.length f).1 hg
  suffices h : NullRes (body L w f args) by
    obtain ⟨v, hv, ht⟩ := nullRes_iff h
    exact ⟨v, by unfold call; rw [hg]; simp [hv], ht⟩
  clear hg
  have asD : asDouble (.null k) = none := rfl
  rcases args with _ | ⟨a, _ | ⟨b, _ | ⟨c, _ | ⟨d, args⟩⟩⟩⟩
  · cases hn
  · have : a = .null k := by simpa [eq_comm] using hn
    subst this
    simp only [List.length_nil, List.length_cons] at h1 h2
    cases f <;> simp only [Fn.minArity, Fn.maxArity] at h1 h2 <;> first
      | omega
      | contradiction
      | rfl
  · have hn : a = .null k ∨ b = .null k := by
      simp only [List.mem_cons, List.not_mem_nil, or_false] at hn
      rcases hn with h | h
      · exact .inl h.symm
      · exact .inr h.symm
    simp only [List.length_nil, List.length_cons] at h1 h2
    cases f <;> simp only [Fn.minArity, Fn.maxArity] at h1 h2 <;> first
      | omega
      | exact absurd rfl hs
      | exact bit_null _ a b k hn
      | (rcases hn with h | h <;> subst h
         · first | rfl | (cases b <;> rfl)
         · first | rfl | (cases a <;> rfl))
  · have hn : a = .null k ∨ b = .null k ∨ c = .null k := by
      simp only [List.mem_cons, List.not_mem_nil, or_false] at hn
      rcases hn with h | h | h
      · exact .inl h.symm
      · exact .inr (.inl h.symm)
      · exact .inr (.inr h.symm)
    simp only [List.length_nil, List.length_cons] at h1 h2
    cases f <;> simp only [Fn.minArity, Fn.maxArity] at h1 h2 <;> first
      | omega
      | exact absurd rfl hs
      | (rcases hn with h | h | h <;> subst h
         · first | rfl | (cases b <;> rfl) | (cases b <;> cases c <;> rfl)
         · first | rfl | (cases a <;> rfl) | (cases a <;> cases c <;> rfl)
         · first | rfl | (cases a <;> rfl) | (cases a <;> cases b <;> rfl))
  · simp only [List.length_cons] at h1 h2
    cases f <;> simp only [Fn.minArity, Fn.maxArity] at h1 h2 <;> first
      | omega
      | exact absurd rfl hs

example : getInternal (ascii "lpad") 3 = some .lpad ∧ Fn.sigs .lpad ≠ none := by decide +kernel

/-- The value, if there is one, has the type or is a NULL. -/
def TypedRes (t : VType) : Res → Prop
  | .val v => HasType v t
  | _ => True

theorem typed_val {t : VType} {r : Res} (h : TypedRes t r) {v : Value} (e : r = .val v) : HasType v t := by
  subst e; exact h

theorem typed_opt {t : VType} {o : Option Value} (h : ∀ v, o = some v → HasType v t) :
    TypedRes t (ofOpt o) := by
  cases o with
  | none => trivial
  | some v => exact h v rfl

theorem math1_typed (a : Value) (g : F64 → F64) : TypedRes .float (math1 [a] g) := by
  cases a <;> simp [math1, arg, TypedRes, HasType, typeOf, nullRes, badType, Value.kNull, Value.kNullBadType]

theorem mathLog_typed (a : Value) (g : F64 → F64) : TypedRes .float (mathLog [a] g) := by
  unfold mathLog arg
  cases a <;> simp only [List.getElem?_cons_zero] <;> (try split) <;>
    simp [TypedRes, HasType, typeOf, nullRes, badType, Value.kNull, Value.kNullBadType]

theorem str1_typed (a : Value) (t : VType) (g : Bytes → Value) (h : ∀ s, typeOf (g s) = t) :
    TypedRes t (str1 [a] g) := by
  unfold str1 arg
  cases a <;> first | exact .inl (h _) | exact .inr rfl

theorem pad_typed (j : Bytes → Bytes → Bytes) (v : Bytes) (n : Int) (x : Bytes) :
    TypedRes .string (pad j v n x) := by
  unfold pad
  repeat' split
  all_goals first | trivial | exact .inl rfl

theorem checkTs_typed (t : Int) : TypedRes .int (checkTimestamp t) := by
  unfold checkTimestamp; split
  · exact .inr rfl
  · exact .inl rfl

theorem rangeGo_typed (s e st : Int) : TypedRes .list (rangeFn.go s e st) := by
  unfold rangeFn.go; split
  · exact .inr rfl
  · trivial
  · exact .inl rfl

theorem ofR_typed {α : Type} {t : VType} (r : R α) (k : α → Option Value)
    (h : ∀ a v, k a = some v → typeOf v = t) : TypedRes t (ofR r k) := by
  cases r with
  | ok a => exact typed_opt fun v hv => .inl (h a v hv)
  | error => exact .inr rfl
  | ub => trivial

theorem map_typed {α : Type} {t : VType} (o : Option α) (k : α → Value) (h : ∀ a, typeOf (k a) = t)
    (v : Value) (e : o.map k = some v) : typeOf v = t := by
  cases o with
  | none => cases e
  | some a => injection e with e; subst e; exact h a

theorem toInt_typed (st : Value.StrToD) (v r : Value) (h : v.toInt st = some r) : HasType r .int := by
  cases v <;> simp only [Value.toInt] at h
  case float f =>
    repeat' split at h
    · injection h with h; subst h; exact .inl rfl
    · injection h with h; subst h; exact .inl rfl
    · exact .inl (map_typed (t := .int) _ Value.int (fun _ => rfl) r h)
  case str s =>
    obtain ⟨x, -, hx⟩ := Option.map_eq_some_iff.1 h
    subst hx
    repeat' split
    all_goals first | exact .inl rfl | exact .inr rfl
  all_goals (injection h with h; subst h; first | exact .inl rfl | exact .inr rfl)

theorem substrRes_typed (s : Bytes) (i : Int) (l : Option Int) :
    TypedRes .string (match substr s i l with | none => badData | some r => .val (.str r)) := by
  split
  · exact .inr rfl
  · exact .inl rfl

theorem pow_typed (x : F64) : TypedRes .int (ofOpt ((Value.castI64 x).map .int)) :=
  typed_opt fun _ e => .inl (map_typed (t := .int) _ Value.int (fun _ => rfl) _ e)

theorem hashList_typed (L : FLib) (vs : List Value) : TypedRes .int (hashFn L (.list vs)) :=
  typed_opt fun _ e => .inl (map_typed (t := .int) ((Value.list vs).hash L.hash) _ (fun _ => rfl) _ e)

theorem toTs_typed (L : FLib) (v : Value) : TypedRes .int (toTimestamp L v) := by
  unfold toTimestamp
  repeat' split
  all_goals first | exact .inr rfl | exact checkTs_typed _ | trivial

theorem toBool_typed (s : Bytes) : HasType (Value.str s).toBool .bool := by
  simp only [Value.toBool]
  repeat' split
  all_goals first | exact .inl rfl | exact .inr rfl

theorem toFloat_typed (st : Value.StrToD) (s : Bytes) : HasType ((Value.str s).toFloat st) .float := by
  simp only [Value.toFloat]
  split
  · exact .inr rfl
  · exact .inl rfl

/-- Only the NULL argument of `size` is promised a NULL: the second signatures of the conversions are
never reached. -/
theorem match_null (f : Fn) (ss : List Fn.Sig) (hs : f.sigs = some ss) (ts : List VType)
    (h : matchSigs ts ss = some .null) : f = .size ∧ ts = [.null] := by
  by_cases hf : f = .size ∨ f = .toboolean ∨ f = .tofloat ∨ f = .tointeger
  · rcases hf with rfl | rfl | rfl | rfl <;> simp only [Fn.sigs, Option.some.injEq] at hs <;> subst hs <;>
      simp only [matchSigs] at h <;> repeat' split at h
    all_goals first
      | (simp at h; done)
      | exact ⟨rfl, by assumption⟩
      | contradiction
  · have hmem := matchSigs_mem h
    have : ∀ g ∈ Fn.all, g = .size ∨ g = .toboolean ∨ g = .tofloat ∨ g = .tointeger ∨
        ((g.sigs.getD []).all fun s => s.2 != .null) = true := by decide +kernel
    rcases this f (all_complete f) with h1 | h1 | h1 | h1 | h1
    · exact absurd (.inl h1) hf
    · exact absurd (.inr (.inl h1)) hf
    · exact absurd (.inr (.inr (.inl h1))) hf
    · exact absurd (.inr (.inr (.inr h1))) hf
    · rw [hs] at h1
      exact absurd (List.all_eq_true.1 h1 _ hmem) (by simp)

set_option maxHeartbeats 4000000 in
theorem sig_typed (L : FLib) (w : World) (f : Fn) (hne : f ≠ .strcasecmp) (args : List Value) :
    ∀ ss, f.sigs = some ss → ∀ s ∈ ss, s.2 ≠ .empty → s.2 ≠ .null → args.map typeOf = s.1 →
      TypedRes s.2 (body L w f args) := by
  intro ss hs
  cases f <;> simp only [Fn.sigs, Fn.floatSigs, Fn.float2Sigs, Option.some.injEq, reduceCtorEq] at hs <;>
    first
    | exact absurd rfl hne
    | (subst hs
       simp only [List.forall_mem_cons, List.not_mem_nil, false_implies, implies_true, and_true]
       and_intros
       all_goals
         intro he0 hn0 ha
         rcases args with _ | ⟨a, _ | ⟨b, _ | ⟨c, _ | ⟨d, args⟩⟩⟩⟩ <;>
           simp only [List.map_nil, List.map_cons, List.cons.injEq, reduceCtorEq, and_false, false_and,
             and_true] at ha
         all_goals first
           | exact absurd rfl he0
           | exact absurd rfl hn0
           | exact .inl rfl
           | exact math1_typed _ _
           | exact mathLog_typed _ _
           | exact str1_typed _ _ _ fun _ => rfl
           | exact typed_opt (toInt_typed _ _)
           | (cases a <;> simp only [typeOf, reduceCtorEq, false_and, true_and] at ha <;> first
               | exact .inl rfl
               | exact .inr rfl
               | exact checkTs_typed _
               | exact rangeGo_typed _ _ _
               | exact ofR_typed _ _ (fun _ _ e => by injection e with e; subst e; rfl)
               | exact ofR_typed _ _ (fun _ => map_typed _ _ (fun _ => rfl))
               | exact typed_opt (fun _ e => .inl (map_typed _ _ (fun _ => rfl) _ e))
               | (cases b <;> simp only [typeOf, reduceCtorEq, false_and, true_and] at ha <;> first
                   | exact .inl rfl
                   | exact .inr rfl
                   | exact rangeGo_typed _ _ _
                   | exact typed_opt (fun _ e => .inl (map_typed _ _ (fun _ => rfl) _ e))
                   | (cases c <;> simp only [typeOf, reduceCtorEq] at ha <;> first
                       | exact .inl rfl
                       | exact pad_typed (fun p v => p ++ v) _ _ _
                       | exact pad_typed (fun p v => v ++ p) _ _ _
                       | exact rangeGo_typed _ _ _
                       | exact substrRes_typed _ _ _
                       | skip)
                   | exact substrRes_typed _ _ _
                   | exact pow_typed _
                   | (simp only [body, arg, List.length_cons, List.length_nil, List.getElem?_cons_zero,
                        List.getElem?_cons_succ]
                      repeat' split
                      all_goals first | exact .inl rfl | exact .inr rfl | trivial | omega)
                   | skip)
               | exact hashList_typed _ _
               | exact toTs_typed _ _
               | exact toBool_typed _
               | exact toFloat_typed _ _
               | (simp only [body, arg, List.length_cons, List.length_nil, List.getElem?_cons_zero,
                    List.getElem?_cons_succ]
                  repeat' split
                  all_goals first | exact .inl rfl | exact .inr rfl | exact toTs_typed _ _ | trivial | omega)
               | skip)
           | (simp only [body]; split
              · exact .inr rfl
              · exact .inl rfl)
           | skip)

/-- C83 (the declared type): if the table of signatures promises a type other than EMPTY (which stands
for "not known") for arguments of these types, and the call returns, the value has that type or is a
NULL.  `strcasecmp` is excluded, see `C83_strcasecmp_violated`. -/
theorem C83_declared_type_partial (L : FLib) (w : World) (n : Bytes) (args : List Value) (t : VType)
    (ht : getReturnType n (args.map typeOf) = some t) (he : t ≠ .empty)
    (hc : ¬ SameName n (ascii "strcasecmp")) (v : Value) (hv : call L w n args = some (.val v)) :
    HasType v t := by
  unfold call at hv
  cases hg : getInternal n args.length with
  | none => rw [hg] at hv; cases hv
  | some f =>
    rw [hg] at hv
    have hb : body L w f args = .val v := by simpa using hv
    have hf := (C82_lookup n args.length f).1 hg
    have hne : f ≠ .strcasecmp := by rintro rfl; exact hc hf.1
    unfold getReturnType at ht
    rw [(lookup_iff n f).2 hf.1] at ht
    cases hs : f.sigs with
    | none => simp [hs] at ht
    | some ss =>
      have ht' : (matchSigs (args.map typeOf) ss).or (nullOrEmpty (args.map typeOf)) = some t := by
        simpa [hs] using ht
      cases hm : matchSigs (args.map typeOf) ss with
      | none =>
        rw [hm] at ht'
        have ht'' : nullOrEmpty (args.map typeOf) = some t := by simpa using ht'
        obtain ⟨hmem, h | h⟩ := nullOrEmpty_mem ht''
        · exact absurd h he
        · subst h
          obtain ⟨x, hx, hx'⟩ := List.mem_map.1 hmem
          obtain ⟨k, rfl⟩ := typeOf_null hx'
          have hh : f ≠ .hash := by
            rintro rfl
            rcases args with _ | ⟨a, _ | ⟨b, args⟩⟩
            · cases hx
            · have : a = .null k := by simpa [eq_comm] using hx
              subst this
              simp only [Fn.sigs, Option.some.injEq] at hs
              subst hs; simp [matchSigs, typeOf] at hm
            · have := hf.2.2; simp [Fn.maxArity] at this
          obtain ⟨v', hv', ht'⟩ := C83_null L w n args f hg (by simp [hs]) hh k hx
          unfold call at hv'
          rw [hg] at hv'
          have : Res.val v = Res.val v' := hb.symm.trans (by simpa using hv')
          injection this with this
          subst this
          exact .inl ht'
      | some t' =>
        rw [hm] at ht'
        have : t' = t := by simpa using ht'
        subst this
        have hmem := matchSigs_mem hm
        by_cases hn : t' = .null
        · subst hn
          obtain ⟨rfl, h⟩ := match_null f ss hs _ hm
          rcases args with _ | ⟨a, _ | ⟨b, args⟩⟩
          · cases h
          · have : typeOf a = .null := by simpa using h
            obtain ⟨k, rfl⟩ := typeOf_null this
            refine typed_val ?_ hb
            exact .inl rfl
          · simp at h
        · exact typed_val (sig_typed L w f hne args ss hs _ hmem he hn rfl) hb

/-- C83: the only function whose declared type is wrong. -/
theorem C83_strcasecmp_violated : ∃ (L : FLib) (w : World) (args : List Value) (v : Value),
    getReturnType (ascii "strcasecmp") (args.map typeOf) = some .string ∧
    call L w (ascii "strcasecmp") args = some (.val v) ∧ typeOf v = .int :=
  ⟨⟨fun _ _ => .nan, fun _ _ => .nan, fun _ _ => .nan, fun _ => [], fun _ => (.nan, [], false),
      ⟨fun _ => 0, fun _ => 0, fun _ => 0, fun _ => 0, fun _ _ => 0, 0, fun _ _ => 0, fun _ _ => 0,
        fun _ => 0, fun _ => 0, fun _ => 0, fun _ => []⟩,
      readNum, 0⟩,
    ⟨.nan, 0, 0, fun _ => 0, 0, none, Time.default, DateTime.default⟩,
    [.str [65], .str [97]], .int 0, by decide +kernel, by
      have : getInternal (ascii "strcasecmp") 2 = some .strcasecmp := by decide +kernel
      simp only [call, List.length_cons, List.length_nil, Nat.zero_add, Nat.reduceAdd, this]
      rfl, rfl⟩

example : getReturnType (ascii "ToString") [.float] = some .string := by decide +kernel
example : getReturnType (ascii "substr") [.string, .int, .null] = some .null := by decide +kernel
example : getReturnType (ascii "abs") [.string] = none := by decide +kernel

end Func
end Nebula
