import Verif.Func.Spec
import Verif.Func.Props
import Verif.Value.OrderLemmas
import Verif.Value.ArithProps
import Mathlib.Tactic.Linarith
/-!
# The functions of numbers (C88)
-/
namespace Nebula
namespace Func

/-- The largest integer that is not above `q`. -/
def IsFloor (q : Rat) (m : Int) : Prop := (m : Rat) ≤ q ∧ q < m + 1
/-- The smallest integer that is not below `q`. -/
def IsCeil (q : Rat) (m : Int) : Prop := q ≤ m ∧ (m : Rat) < q + 1
/-- The integer nearest to `q`; halves away from zero. -/
def IsRound (q : Rat) (m : Int) : Prop :=
  (0 ≤ q → (m : Rat) - 1/2 ≤ q ∧ q < m + 1/2) ∧ (q < 0 → (m : Rat) - 1/2 < q ∧ q ≤ m + 1/2)

/-- C88 (`floor`, `ceil`, `round` of a finite FLOAT). -/
theorem C88_rounding (L : FLib) (w : World) (q : Rat) :
    (∃ m : Int, body L w .floor [.float (.fin q)] = .val (.float (.fin m)) ∧ IsFloor q m) ∧
    (∃ m : Int, body L w .ceil [.float (.fin q)] = .val (.float (.fin m)) ∧ IsCeil q m) ∧
    (∃ m : Int, body L w .round [.float (.fin q)] = .val (.float (.fin m)) ∧ IsRound q m) := by
  have hf := fun q : Rat => Rat.floor_le q
  have hl : ∀ q : Rat, q < (q.floor : Rat) + 1 := fun q => by
    have := Rat.lt_floor_add_one q
    push_cast at this; exact this
  refine ⟨⟨q.floor, rfl, hf q, hl q⟩, ⟨-((-q).floor), ?_, ?_, ?_⟩, ?_⟩
  · show Res.val (.float (.fin (-((-q).floor : Rat)))) = _
    push_cast; rfl
  · have := hf (-q); push_cast; linarith
  · have := hl (-q); push_cast; linarith
  · by_cases h : 0 ≤ q
    · refine ⟨(q + 1/2).floor, ?_, ?_, ?_⟩
      · show Res.val (.float (.fin (if 0 ≤ q then _ else _))) = _
        rw [if_pos h]
      · intro _
        have h1 := hf (q + 1/2); have h2 := hl (q + 1/2)
        constructor <;> linarith
      · intro h2; linarith
    · refine ⟨-((-q + 1/2).floor), ?_, ?_, ?_⟩
      · show Res.val (.float (.fin (if 0 ≤ q then _ else _))) = _
        rw [if_neg h]; push_cast; rfl
      · intro h2; exact absurd h2 h
      · intro _
        have h1 := hf (-q + 1/2); have h2 := hl (-q + 1/2)
        push_cast
        constructor <;> linarith

example : IsRound (5/2) 3 ∧ IsRound (-5/2) (-3) ∧ IsFloor (-5/2) (-3) ∧ IsCeil (-5/2) (-2) := by
  unfold IsRound IsFloor IsCeil; norm_num

/-- C88: an INT of at most 2^53 in absolute value is unchanged by the three functions (as a FLOAT). -/
theorem C88_rounding_int_partial (L : FLib) (w : World) (i : Int) (h1 : -9007199254740992 ≤ i)
    (h2 : i ≤ 9007199254740992) (f : Fn) (hf : f = .floor ∨ f = .ceil ∨ f = .round) :
    body L w f [.int i] = .val (.float (.fin i)) := by
  have hi := F64.ofInt_small i h1 h2
  have hb : body L w f [.int i] = body L w f [.float (.fin i)] := by
    have key : ∀ g, math1 [.int i] g = math1 [.float (.fin i)] g := by
      intro g
      show Res.val (.float (g (F64.ofInt i))) = _
      rw [hi]; rfl
    rcases hf with rfl | rfl | rfl <;> exact key _
  rw [hb]
  clear hb
  obtain ⟨⟨a, ha, ha2⟩, ⟨b, hb, hb2⟩, ⟨c, hc, hc2⟩⟩ := C88_rounding L w (i : Rat)
  have cast : ∀ m : Int, (m : Rat) - 1 < i → (i : Rat) < m + 1 → m = i := by
    intro m h1 h2
    have h1' : ((m - 1 : Int) : Rat) < (i : Int) := by push_cast; exact h1
    have h2' : ((i : Int) : Rat) < ((m + 1 : Int) : Rat) := by push_cast; exact h2
    have := Int.cast_lt.1 h1'
    have := Int.cast_lt.1 h2'
    omega
  rcases hf with rfl | rfl | rfl
  · rw [ha, cast a (by have := ha2.1; linarith) ha2.2]
  · rw [hb, cast b (by have := hb2.2; linarith) (by have := hb2.1; linarith)]
  · rw [hc, cast c ?_ ?_]
    · rcases le_or_gt 0 (i : Rat) with h | h
      · have := (hc2.1 h).1; linarith
      · have := (hc2.2 h).1; linarith
    · rcases le_or_gt 0 (i : Rat) with h | h
      · have := (hc2.1 h).2; linarith
      · have := (hc2.2 h).2; linarith

/-- C88: a larger INT is not: rounding an integer changes it. -/
theorem C88_rounding_int_violated (L : FLib) (w : World) :
    body L w .floor [.int 9007199254740995] = .val (.float (.fin 9007199254740996)) ∧
    body L w .ceil [.int 9007199254740993] = .val (.float (.fin 9007199254740992)) := by
  constructor
  · show Res.val (.float (floorF (F64.ofInt 9007199254740995))) = _
    rw [show F64.ofInt 9007199254740995 = .fin 9007199254740996 by decide +kernel]
    show Res.val (.float (.fin _)) = _
    rw [show ((9007199254740996 : Rat).floor) = 9007199254740996 by decide +kernel]
    norm_num
  · show Res.val (.float (ceilF (F64.ofInt 9007199254740993))) = _
    rw [show F64.ofInt 9007199254740993 = .fin 9007199254740992 by decide +kernel]
    show Res.val (.float (.fin _)) = _
    rw [show ((-9007199254740992 : Rat).floor) = -9007199254740992 by decide +kernel]
    norm_num

/-- C88 (`sign`, `abs`): the number is its sign times its absolute value, and that is not negative. -/
theorem C88_sign_abs (L : FLib) (w : World) (i : Int) (h : i ≠ -9223372036854775808) (hi : InI64 i) :
    ∃ s a : Int, body L w .sign [.int i] = .val (.int s) ∧ body L w .abs [.int i] = .val (.int a) ∧
      i = s * a ∧ 0 ≤ a ∧ InI64 a ∧ (s = 1 ∨ s = 0 ∨ s = -1) ∧ (s = 0 ↔ i = 0) := by
  refine ⟨if i > 0 then 1 else if i < 0 then -1 else 0, if i < 0 then -i else i, rfl, ?_, ?_⟩
  · show (if i = -9223372036854775808 then Res.undef else _) = _
    rw [if_neg h]
  · unfold InI64 at *
    split
    · rw [if_neg (by omega)]; omega
    · split
      · omega
      · omega

theorem C88_sign_abs_float (L : FLib) (w : World) (q : Rat) :
    ∃ (s : Int) (a : Rat), body L w .sign [.float (.fin q)] = .val (.int s) ∧
      body L w .abs [.float (.fin q)] = .val (.float (.fin a)) ∧
      q = s * a ∧ 0 ≤ a ∧ (s = 1 ∨ s = 0 ∨ s = -1) ∧ (s = 0 ↔ q = 0) := by
  refine ⟨if decide (0 < q) = true then 1 else if decide (q < 0) = true then -1 else 0, if q < 0 then -q else q,
    rfl, rfl, ?_⟩
  simp only [decide_eq_true_eq]
  rcases lt_trichotomy q 0 with h | h | h
  · have h1 : ¬ 0 < q := by linarith
    simp only [h, h1, if_true, if_false]
    refine ⟨by push_cast; linarith, by linarith, by simp, ?_⟩
    constructor
    · intro h; omega
    · intro h2; linarith
  · subst h; simp
  · have h1 : ¬ q < 0 := by linarith
    simp only [h, h1, if_true, if_false]
    refine ⟨by push_cast; linarith, by linarith, by simp, ?_⟩
    constructor
    · intro h; omega
    · intro h2; linarith

/-- C88 (`bit_and`, `bit_or`, `bit_xor`): bit by bit. -/
theorem C88_bits (L : FLib) (w : World) (x y : Int) (hx : InI64 x) (hy : InI64 y) :
    (∃ z, body L w .bit_and [.int x, .int y] = .val (.int z) ∧ InI64 z ∧
      ∀ k < 64, bit z k = (bit x k && bit y k)) ∧
    (∃ z, body L w .bit_or [.int x, .int y] = .val (.int z) ∧ InI64 z ∧
      ∀ k < 64, bit z k = (bit x k || bit y k)) ∧
    (∃ z, body L w .bit_xor [.int x, .int y] = .val (.int z) ∧ InI64 z ∧
      ∀ k < 64, bit z k = (bit x k != bit y k)) := by
  obtain ⟨⟨a, ha, ha2⟩, ⟨b, hb, hb2⟩, ⟨c, hc, hc2⟩⟩ := C15_bitwise x y hx hy
  refine ⟨⟨a, ?_, ha2⟩, ⟨b, ?_, hb2⟩, ⟨c, ?_, hc2⟩⟩
  · show Res.val _ = _; rw [ha]
  · show Res.val _ = _; rw [hb]
  · show Res.val _ = _; rw [hc]

/-- C88 (domain errors): roots of negative numbers and logarithms of zero are NULL; the library is asked
for other numbers only. -/
theorem C88_domain (L : FLib) (w : World) (i : Int) :
    body L w .sqrt [.int i] = (if i < 0 then .val (.null .null) else .val (.float (L.math "sqrt" (F64.ofInt i)))) ∧
    body L w .log [.int i] = (if i = 0 then .val (.null .null) else .val (.float (L.math "log" (F64.ofInt i)))) ∧
    body L w .log2 [.int i] = (if i = 0 then .val (.null .null) else .val (.float (L.math "log2" (F64.ofInt i)))) ∧
    body L w .log10 [.int i] = (if i = 0 then .val (.null .null) else .val (.float (L.math "log10" (F64.ofInt i)))) :=
  ⟨rfl, rfl, rfl, rfl⟩

/-- C88 (domain errors of FLOATs): a number below zero, minus infinity included, has no root and zero has no
logarithm of any base; the library is asked for the root of every number from zero on and for the logarithm of
every number that is at least 2e-8 away from zero. -/
theorem C88_domain_float (L : FLib) (w : World) (q : Rat) :
    body L w .sqrt [.float (.fin q)] = (if q < 0 then .val (.null .null) else .val (.float (L.math "sqrt" (.fin q)))) ∧
    body L w .sqrt [.float (.inf true)] = .val (.null .null) ∧
    (∀ f n, (f, n) ∈ [(Fn.log, "log"), (.log2, "log2"), (.log10, "log10")] →
      body L w f [.float (.fin 0)] = .val (.null .null) ∧
      (q ≤ -(1/50000000) ∨ 1/50000000 ≤ q → body L w f [.float (.fin q)] = .val (.float (L.math n (.fin q))))) := by
  obtain ⟨e, he, h0, h1⟩ : ∃ e : Rat, F64.eps = .fin e ∧ 0 ≤ e ∧ e < 1/50000000 := by
    refine ⟨(match F64.eps with | .fin e => e | _ => 0), ?_, ?_, ?_⟩ <;> decide +kernel
  have key : ∀ g : F64 → F64, mathLog [.float (.fin 0)] g = .val (.null .null) ∧
      (q ≤ -(1/50000000) ∨ 1/50000000 ≤ q → mathLog [.float (.fin q)] g = .val (.float (g (.fin q)))) := by
    intro g
    constructor
    · show (if F64.le (F64.neg F64.eps) (.fin 0) && F64.le (.fin 0) F64.eps then nullRes else _) = _
      rw [he, if_pos]
      · rfl
      · simp only [F64.neg, F64.le, Bool.and_eq_true, decide_eq_true_eq]
        constructor <;> linarith
    · intro hq
      show (if F64.le (F64.neg F64.eps) (.fin q) && F64.le (.fin q) F64.eps then nullRes else _) = _
      rw [he, if_neg]
      simp only [F64.neg, F64.le, Bool.and_eq_true, decide_eq_true_eq]
      rintro ⟨a, b⟩
      rcases hq with hq | hq <;> linarith
  refine ⟨?_, rfl, ?_⟩
  · show (if F64.lt (.fin q) (.fin 0) then nullRes else _) = _
    simp only [F64.lt, decide_eq_true_eq]; rfl
  · intro f n h
    simp only [List.mem_cons, Prod.mk.injEq, List.not_mem_nil, or_false] at h
    rcases h with ⟨rfl, rfl⟩ | ⟨rfl, rfl⟩ | ⟨rfl, rfl⟩ <;> exact key _

/-- C88 (functions of the mathematical library): each name, in any case of letters, asks the library for the
function of the same name; of the INT converted to a FLOAT, of the FLOAT itself; NULL for NULL. -/
theorem C88_library (L : FLib) (w : World) (n : String) (name : Bytes)
    (h : n ∈ ["cbrt", "exp", "exp2", "sin", "asin", "cos", "acos", "tan", "atan"])
    (hn : name.map Value.toLower = ascii n) :
    (∀ x, call L w name [.float x] = some (.val (.float (L.math n x)))) ∧
    (∀ i : Int, call L w name [.int i] = some (.val (.float (L.math n (F64.ofInt i))))) ∧
    (∀ k, call L w name [.null k] = some (.val (.null .null))) := by
  have key : ∀ f : Fn, Fn.all.find? (fun f => ascii f.name == ascii n) = some f →
      ¬ (1 < f.minArity ∨ 1 > f.maxArity) → ∀ v, call L w name [v] = some (body L w f [v]) := by
    intro f hf ha v
    simp only [call, getInternal, lookup, hn, hf, List.length_cons, List.length_nil, Nat.zero_add, if_neg ha,
      Option.map_some]
  simp only [List.mem_cons, List.not_mem_nil, or_false] at h
  rcases h with rfl | rfl | rfl | rfl | rfl | rfl | rfl | rfl | rfl
  · have := key .cbrt (by decide +kernel) (by decide +kernel); exact ⟨fun _ => this _, fun _ => this _, fun _ => this _⟩
  · have := key .exp (by decide +kernel) (by decide +kernel); exact ⟨fun _ => this _, fun _ => this _, fun _ => this _⟩
  · have := key .exp2 (by decide +kernel) (by decide +kernel); exact ⟨fun _ => this _, fun _ => this _, fun _ => this _⟩
  · have := key .sin (by decide +kernel) (by decide +kernel); exact ⟨fun _ => this _, fun _ => this _, fun _ => this _⟩
  · have := key .asin (by decide +kernel) (by decide +kernel); exact ⟨fun _ => this _, fun _ => this _, fun _ => this _⟩
  · have := key .cos (by decide +kernel) (by decide +kernel); exact ⟨fun _ => this _, fun _ => this _, fun _ => this _⟩
  · have := key .acos (by decide +kernel) (by decide +kernel); exact ⟨fun _ => this _, fun _ => this _, fun _ => this _⟩
  · have := key .tan (by decide +kernel) (by decide +kernel); exact ⟨fun _ => this _, fun _ => this _, fun _ => this _⟩
  · have := key .atan (by decide +kernel) (by decide +kernel); exact ⟨fun _ => this _, fun _ => this _, fun _ => this _⟩

/-- `SIN` is one of the names. -/
example : "sin" ∈ ["cbrt", "exp", "exp2", "sin", "asin", "cos", "acos", "tan", "atan"] ∧
    (ascii "SIN").map Value.toLower = ascii "sin" := ⟨by simp, by decide +kernel⟩

/-- C88: logarithms of numbers near zero are NULL as well. -/
theorem C88_log_zone_violated (L : FLib) (w : World) :
    body L w .log [.float (.fin (1/1000000000))] = .val (.null .null) := by
  show (if F64.le (F64.neg F64.eps) (.fin (1/1000000000)) && F64.le (.fin (1/1000000000)) F64.eps then _ else _) = _
  rw [if_pos (by decide +kernel)]; rfl

/-- C88 (`timestamp` of an INT): unchanged within 0 and 9223372036, an error outside. -/
theorem C88_timestamp (L : FLib) (w : World) (t : Int) :
    body L w .timestamp [.int t] =
      if 0 ≤ t ∧ t ≤ 9223372036 then .val (.int t) else .val (.null .badData) := by
  show checkTimestamp t = _
  unfold checkTimestamp kMaxTimestamp
  by_cases h : 0 ≤ t ∧ t ≤ 9223372036
  · rw [if_neg (by omega), if_pos h]
  · rw [if_pos (by omega), if_neg h]; rfl

/-- C88 (`cos_similarity`): for two vectors of numbers the three sums are accumulated over the pairs of
components at equal positions; an odd number of arguments gives -2. -/
theorem C88_cos_odd (L : FLib) (w : World) (args : List Value) (h : args.length % 2 = 1) :
    body L w .cos_similarity args = .val (.float (.fin (-2))) := by
  show Res.val (cosSimilarity L args) = _
  unfold cosSimilarity
  rw [if_pos (by omega)]

/-- The sum (in floating point, from the left) of the products of components. -/
def dot (acc : F64) : List F64 → List F64 → F64
  | x :: xs, y :: ys => dot (F64.add acc (F64.mul x y)) xs ys
  | _, _ => acc

theorem cosLoop_dot (xs ys : List Value) (as bs : List F64) (hx : xs.map asDouble = as.map some)
    (hy : ys.map asDouble = bs.map some) (hl : xs.length = ys.length) (s1 s2 s3 : F64) :
    cosLoop s1 s2 s3 (xs.zip ys) = some (dot s1 as bs, dot s2 as as, dot s3 bs bs) := by
  induction xs generalizing ys as bs s1 s2 s3 with
  | nil =>
    cases ys with
    | nil =>
      cases as with
      | cons _ _ => cases hx
      | nil => cases bs with
        | cons _ _ => cases hy
        | nil => rfl
    | cons _ _ => cases hl
  | cons x xs ih =>
    cases ys with
    | nil => cases hl
    | cons y ys =>
      cases as with
      | nil => cases hx
      | cons a as =>
        cases bs with
        | nil => cases hy
        | cons b bs =>
          simp only [List.map_cons, List.cons.injEq] at hx hy
          rw [List.zip_cons_cons, cosLoop, hx.1, hy.1]
          exact ih ys as bs hx.2 hy.2 (by simpa using hl) _ _ _

/-- C88 (`cos_similarity` of `x₁ … xₙ, y₁ … yₙ`): the scalar product divided by the product of the roots
of the squared lengths; -2 if a vector is (nearly) zero. -/
theorem C88_cos (L : FLib) (w : World) (xs ys : List Value) (as bs : List F64)
    (hx : xs.map asDouble = as.map some) (hy : ys.map asDouble = bs.map some) (hl : xs.length = ys.length) :
    body L w .cos_similarity (xs ++ ys) =
      let z := F64.fin 0
      if F64.le (F64.abs (dot z as as)) F64.eps ∨ F64.le (F64.abs (dot z bs bs)) F64.eps then
        .val (.float (.fin (-2)))
      else .val (.float (F64.div (dot z as bs) (F64.mul (L.math "sqrt" (dot z as as)) (L.math "sqrt" (dot z bs bs))))) := by
  show Res.val (cosSimilarity L (xs ++ ys)) = _
  unfold cosSimilarity
  have h2 : (xs ++ ys).length / 2 = xs.length := by rw [List.length_append]; omega
  rw [if_neg (by rw [List.length_append]; omega), h2, List.take_left, List.drop_left,
    cosLoop_dot xs ys as bs hx hy hl]
  simp only [Bool.or_eq_true]
  split <;> rfl

example : dot (.fin 0) [.fin 1, .fin 2] [.fin 3, .fin 4] = .fin 11 := by decide +kernel

/-- C88 (`hypot`, `pow` of FLOATs): the library is asked for the numbers given, in the order given. -/
theorem C88_pow (L : FLib) (w : World) (x y : F64) (i j : Int) :
    body L w .pow [.float x, .float y] = .val (.float (L.pow x y)) ∧
    body L w .pow [.float x, .int j] = .val (.float (L.pow x (F64.ofInt j))) ∧
    body L w .pow [.int i, .float y] = .val (.float (L.pow (F64.ofInt i) y)) ∧
    body L w .hypot [.float x, .float y] = .val (.float (L.hypot x y)) := ⟨rfl, rfl, rfl, rfl⟩

/-- C88 (`pow` of INTs): the library's result cut to an integer; undefined if that is no INT. -/
theorem C88_pow_int (L : FLib) (w : World) (i j : Int) (q : Rat)
    (h : L.pow (F64.ofInt i) (F64.ofInt j) = .fin q) :
    body L w .pow [.int i, .int j] =
      if InI64 (F64.trunc q) then .val (.int (F64.trunc q)) else .undef := by
  show ofOpt ((Value.castI64 (L.pow (F64.ofInt i) (F64.ofInt j))).map .int) = _
  rw [h]
  show ofOpt ((if InI64 (F64.trunc q) then some (F64.trunc q) else none).map .int) = _
  by_cases h : InI64 (F64.trunc q)
  · rw [if_pos h, if_pos h]; rfl
  · rw [if_neg h, if_neg h]; rfl

/-- C88 (`radians`): the number times the double nearest to pi, divided by 180, each rounded. -/
theorem C88_radians (L : FLib) (w : World) (i : Int) (x : F64) :
    body L w .radians [.int i] = .val (.float (F64.div (F64.mul (F64.ofInt i) (.fin (884279719003555 / 281474976710656))) (.fin 180))) ∧
    body L w .radians [.float x] = .val (.float (F64.div (F64.mul x (.fin (884279719003555 / 281474976710656))) (.fin 180))) := by
  have h : F64.ofInt 180 = .fin 180 := by
    have := F64.ofInt_small 180 (by omega) (by omega)
    rw [this]; congr 1
  constructor
  · show Res.val (.float (F64.div (F64.mul (F64.ofInt i) mPi) (F64.ofInt 180))) = _
    rw [h]; rfl
  · show Res.val (.float (F64.div (F64.mul x mPi) (F64.ofInt 180))) = _
    rw [h]; rfl

end Func
end Nebula
