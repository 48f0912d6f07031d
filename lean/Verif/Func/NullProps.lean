import Verif.Func.Props
/-!
# NULL arguments (C121)
-/
namespace Nebula
namespace Func

/-- The functions that are not meant to pass on a NULL. -/
def seesNull : List Fn := [.hash, .udf_is_in, .near, .cos_similarity]

/-- The result is NULL, of some kind. -/
def IsNull (r : Res) : Prop := ∃ n, r = .val (.null n)

theorem isNull_iff (v : Value) : v.isNull = true ↔ ∃ n, v = .null n := by
  cases v <;> simp [Value.isNull]

theorem null1 (L : FLib) (w : World) (f : Fn) (h : f ∉ seesNull) (n : NullType) (hm : f.minArity ≤ 1) (hx : 1 ≤ f.maxArity) : IsNull (body L w f [.null n]) := by
  cases f <;> first
    | exact absurd hm (by decide)
    | exact absurd hx (by decide)
    | exact absurd h (by decide)
    | exact ⟨_, rfl⟩

theorem null2a (L : FLib) (w : World) (f : Fn) (h : f ∉ seesNull) (n : NullType) (b : Value) (hm : f.minArity ≤ 2) (hx : 2 ≤ f.maxArity) :
    IsNull (body L w f [.null n, b]) := by
  cases f <;> first
    | exact absurd hm (by decide)
    | exact absurd hx (by decide)
    | exact absurd h (by decide)
    | exact ⟨_, rfl⟩
    | (cases b <;> exact ⟨_, rfl⟩)

theorem null2b (L : FLib) (w : World) (f : Fn) (h : f ∉ seesNull) (a : Value) (n : NullType) (hm : f.minArity ≤ 2) (hx : 2 ≤ f.maxArity) :
    IsNull (body L w f [a, .null n]) := by
  cases f <;> first
    | exact absurd hm (by decide)
    | exact absurd hx (by decide)
    | exact absurd h (by decide)
    | exact ⟨_, rfl⟩
    | (cases a <;> exact ⟨_, rfl⟩)

theorem null3 (L : FLib) (w : World) (f : Fn) (h : f ∉ seesNull) (a b c : Value) (hn : a.isNull = true ∨ b.isNull = true ∨ c.isNull = true)
    (hm : f.minArity ≤ 3) (hx : 3 ≤ f.maxArity) : IsNull (body L w f [a, b, c]) := by
  cases f <;> first
    | exact absurd hm (by decide)
    | exact absurd hx (by decide)
    | exact absurd h (by decide)
    | skip
  all_goals
    rcases hn with hn | hn | hn <;> obtain ⟨n, rfl⟩ := (isNull_iff _).1 hn
  all_goals first
    | exact ⟨_, rfl⟩
    | (cases a <;> exact ⟨_, rfl⟩)
    | (cases b <;> exact ⟨_, rfl⟩)
    | (cases a <;> first | exact ⟨_, rfl⟩ | (cases b <;> exact ⟨_, rfl⟩))
    | skip

/-- C121: a function that is given NULL for one of its arguments gives NULL, apart from four. -/
theorem C121_null_partial (L : FLib) (w : World) (f : Fn) (args : List Value) (hf : f ∉ seesNull) (hm : f.minArity ≤ args.length)
    (hx : args.length ≤ f.maxArity) (hn : ∃ x ∈ args, x.isNull = true) : ∃ v, body L w f args = .val v ∧ v.isNull = true := by
  have hx3 : f.maxArity ≤ 3 := by
    revert hf; cases f <;> decide
  have key : IsNull (body L w f args) := by
    match args, hn, hm, hx with
    | [a], ⟨x, hx', hn⟩, hm, hx =>
      simp only [List.mem_singleton] at hx'; subst hx'
      obtain ⟨n, rfl⟩ := (isNull_iff _).1 hn
      exact null1 L w f hf n hm hx
    | [a, b], ⟨x, hx', hn⟩, hm, hx =>
      simp only [List.mem_cons, List.not_mem_nil, or_false] at hx'
      obtain ⟨n, rfl⟩ := (isNull_iff _).1 hn
      rcases hx' with rfl | rfl
      · exact null2a L w f hf n b hm hx
      · exact null2b L w f hf a n hm hx
    | [a, b, c], ⟨x, hx', hn⟩, hm, hx =>
      simp only [List.mem_cons, List.not_mem_nil, or_false] at hx'
      refine null3 L w f hf a b c ?_ hm hx
      rcases hx' with rfl | rfl | rfl <;> simp [hn]
    | a :: b :: c :: d :: l, _, _, hx => simp at hx; omega
  obtain ⟨n, hn⟩ := key
  exact ⟨_, hn, rfl⟩

/-- A function with an argument that is NULL among others that are not. -/
example : Fn.lpad ∉ seesNull ∧ Fn.lpad.minArity ≤ [Value.str [97], .int 3, .null .null].length ∧ [Value.str [97], .int 3, .null .null].length ≤ Fn.lpad.maxArity ∧
    ∃ x ∈ [Value.str [97], .int 3, .null .null], x.isNull = true := ⟨by decide, by decide, by decide, .null .null, by simp, rfl⟩

/-- C121 does not hold for `hash`: the hash of NULL is a number. -/
theorem C121_hash_violated (L : FLib) (w : World) (n : NullType) : ∃ i, body L w .hash [.null n] = .val (.int i) := by
  cases n <;> exact ⟨_, rfl⟩

/-- C121 does not hold for `udf_is_in`: it always gives a truth value, so NULL is in a list that contains NULL of the same kind and NULL is not in a list of numbers. -/
theorem C121_is_in_violated (L : FLib) (w : World) :
    (∀ a args, ∃ b, body L w .udf_is_in (a :: args) = .val (.bool b)) ∧
    body L w .udf_is_in [.null .null, .null .null] = .val (.bool true) ∧ body L w .udf_is_in [.null .null, .int 1] = .val (.bool false) :=
  ⟨fun _ _ => ⟨_, rfl⟩, by simp [body, arg, Value.beq], by simp [body, arg, Value.beq]⟩

/-- C121 does not hold for `near`, which is not implemented: it gives an empty string whatever its arguments are. -/
theorem C121_near_violated (L : FLib) (w : World) (args : List Value) : body L w .near args = .val (.str []) := rfl

theorem cosLoop_null (a b : F64) (c : F64) (l : List (Value × Value)) (h : ∃ p ∈ l, p.1.isNull = true ∨ p.2.isNull = true) : cosLoop a b c l = none := by
  induction l generalizing a b c with
  | nil => obtain ⟨p, hp, _⟩ := h; simp at hp
  | cons q l ih =>
    obtain ⟨x, y⟩ := q
    unfold cosLoop
    split
    · rename_i hx hy
      obtain ⟨p, hp, hn⟩ := h
      rcases List.mem_cons.1 hp with rfl | hp
      · rcases hn with hn | hn <;> obtain ⟨n, rfl⟩ := (isNull_iff _).1 hn <;> simp [asDouble] at hx hy
      · exact ih _ _ _ ⟨p, hp, hn⟩
    · rfl

/-- C121 (`cos_similarity`): NULL is passed on if the number of arguments is even. -/
theorem C121_cos_partial (L : FLib) (w : World) (args : List Value) (he : args.length % 2 = 0) (hn : ∃ x ∈ args, x.isNull = true) :
    body L w .cos_similarity args = .val (.null .badType) := by
  show Res.val (cosSimilarity L args) = _
  unfold cosSimilarity
  rw [if_neg (by omega), cosLoop_null]
  · rfl
  · obtain ⟨x, hx, hn⟩ := hn
    obtain ⟨i, hi, rfl⟩ := List.mem_iff_getElem.1 hx
    by_cases h : i < args.length / 2
    · refine ⟨(args[i], args[args.length / 2 + i]'(by omega)), ?_, .inl hn⟩
      refine List.mem_iff_getElem.2 ⟨i, by simp; omega, ?_⟩
      simp
    · refine ⟨(args[i - args.length / 2]'(by omega), args[i]), ?_, .inr hn⟩
      refine List.mem_iff_getElem.2 ⟨i - args.length / 2, by simp; omega, ?_⟩
      simp only [List.getElem_zip, List.getElem_take, List.getElem_drop, Prod.mk.injEq, true_and]
      congr 1; omega

example : [Value.int 1, .int 2, .null .null, .int 4].length % 2 = 0 ∧ ∃ x ∈ [Value.int 1, .int 2, .null .null, .int 4], x.isNull = true :=
  ⟨rfl, .null .null, by simp, rfl⟩

/-- C121 does not hold for `cos_similarity` with an odd number of arguments: the result is -2. -/
theorem C121_cos_violated (L : FLib) (w : World) (args : List Value) (ho : args.length % 2 = 1) :
    body L w .cos_similarity args = .val (.float (.fin (-2))) := by
  show Res.val (cosSimilarity L args) = _
  unfold cosSimilarity
  rw [if_pos (by omega)]

example : [Value.int 1, .int 2, .null .null].length % 2 = 1 := rfl

/-- C121 at the call by name. -/
theorem C121_call_partial (L : FLib) (w : World) (name : Bytes) (args : List Value) (r : Res) (hn : ∃ x ∈ args, x.isNull = true)
    (hf : ∀ f ∈ seesNull, ascii f.name ≠ name.map Value.toLower) (hr : call L w name args = some r) : ∃ v, r = .val v ∧ v.isNull = true := by
  unfold call at hr
  rw [Option.map_eq_some_iff] at hr
  obtain ⟨f, hg, rfl⟩ := hr
  unfold getInternal at hg
  split at hg
  · simp at hg
  · rename_i g hl
    split at hg
    · simp at hg
    · rename_i ha
      have hfg := Option.some.inj hg
      subst hfg
      have hk := List.find?_some hl
      simp only [beq_iff_eq] at hk
      exact C121_null_partial L w _ args (fun hm => hf _ hm hk) (by omega) (by omega) hn

example (L : FLib) (w : World) : ∃ r, call L w (ascii "Left") [.str [97], .null .null] = some r := by
  refine ⟨_, rfl⟩

end Func
end Nebula
