import Verif.Regex.Model
/-!
# Specification: the language of a regular expression (C149)

`Matches r k u t`: the expression `r` matches the text `u`, with `k` characters before it and the text `t` after it.
No order of trying and no groups.
-/
namespace Nebula
namespace Regex

inductive Matches : Re → Nat → Bytes → Bytes → Prop
  | empty {k t} : Matches .empty k [] t
  | chr {c k t} : Matches (.chr c) k [c] t
  | dot {c k t} : c ≠ 10 → c ≠ 13 → Matches .dot k [c] t
  | cls {neg rs c k t} : ((∃ r ∈ rs, r.1 ≤ c ∧ c ≤ r.2) ↔ neg = false) → Matches (.cls ⟨neg, rs⟩) k [c] t
  | seq {a b k u v t} : Matches a k u (v ++ t) → Matches b (k + u.length) v t → Matches (.seq a b) k (u ++ v) t
  | left {a b k u t} : Matches a k u t → Matches (.alt a b) k u t
  | right {a b k u t} : Matches b k u t → Matches (.alt a b) k u t
  | stop {a k t} : Matches (.star a) k [] t
  | more {a k u v t} : Matches a k u (v ++ t) → Matches (.star a) (k + u.length) v t → Matches (.star a) k (u ++ v) t
  | none {a k t} : Matches (.opt a) k [] t
  | once {a k u t} : Matches a k u t → Matches (.opt a) k u t
  | group {n a k u t} : Matches a k u t → Matches (.group n a) k u t
  | bol {t} : Matches .bol 0 [] t
  | eol {k} : Matches .eol k [] []

end Regex
end Nebula
