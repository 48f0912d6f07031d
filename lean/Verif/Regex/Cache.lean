import Verif.Regex.Model
import Verif.Expr.Ops
import Verif.Map
/-!
# Model of `text =~ pattern` with the patterns kept in the context

`src/common/context/ExpressionContext.h`, `src/common/expression/RelationalExpression.cpp`.  `compile` stands for the
constructor of `std::regex`, `match_` for `std::regex_match`; both give `none` for an exception.
-/
namespace Nebula
namespace Regex

variable {R : Type}

/-- ExpressionContext.h:68-74 `getRegex`: the expression, and `regex_` afterwards.  The constructor throws before anything is
added to the map. -/
def getRegex (compile : Bytes → Option R) (c : AMap Bytes R) (pattern : Bytes) : Option R × AMap Bytes R :=
  match c.find pattern with
  | some r => (some r, c)
  | none => match compile pattern with
    | none => (none, c)
    | some r => (some r, c.emplace pattern r)

/-- RelationalExpression.cpp:37-54 REG: the result, and `regex_` afterwards. -/
def regCached (compile : Bytes → Option R) (match_ : R → Bytes → Option Bool) (c : AMap Bytes R) (l r : Value) : Value × AMap Bytes R :=
  if l.isBadNull || r.isBadNull then (Value.kNullBadType, c)
  else match l, r with
    | .str a, .str b =>
      match getRegex compile c b with
      | (none, c') => (Value.kNullBadType, c')
      | (some e, c') => match match_ e a with
        | none => (Value.kNullBadType, c')
        | some x => (.bool x, c')
    | .null _, .null _ => (Value.kNull, c)
    | .null _, .str _ => (Value.kNull, c)
    | .str _, .null _ => (Value.kNull, c)
    | _, _ => (Value.kNullBadType, c)

/-- Evaluations one after the other in the same context: `regex_` afterwards. -/
def regHistory (compile : Bytes → Option R) (match_ : R → Bytes → Option Bool) (c : AMap Bytes R) : List (Value × Value) → AMap Bytes R
  | [] => c
  | x :: xs => regHistory compile match_ (regCached compile match_ c x.1 x.2).2 xs

/-- `std::regex_match` with `std::regex(pattern)`, as far as it is modelled. -/
def stdRegex (pattern text : Bytes) : Option Bool := (parse pattern).map fun r => (fullMatch r text).isSome

end Regex
end Nebula
