/-!
# Order and equality vocabulary used in the statements about values
-/
namespace Nebula.Spec

/-- What `std::sort` requires of a comparison (strict weak order) on the members of `S`. -/
structure StrictWeakOrder {α : Type} (lt : α → α → Bool) (S : α → Prop) : Prop where
  irrefl : ∀ a, S a → lt a a = false
  asymm : ∀ a b, S a → S b → lt a b = true → lt b a = false
  trans : ∀ a b c, S a → S b → S c → lt a b = true → lt b c = true → lt a c = true
  /-- "neither is before the other" is transitive -/
  incomp_trans : ∀ a b c, S a → S b → S c → lt a b = false → lt b a = false →
    lt b c = false → lt c b = false → lt a c = false ∧ lt c a = false

/-- Equivalence relation on the members of `S`. -/
structure EquivalenceOn {α : Type} (eq : α → α → Bool) (S : α → Prop) : Prop where
  refl : ∀ a, S a → eq a a = true
  symm : ∀ a b, S a → S b → eq a b = true → eq b a = true
  trans : ∀ a b c, S a → S b → S c → eq a b = true → eq b c = true → eq a c = true

end Nebula.Spec
