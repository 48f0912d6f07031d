import Verif.Value.Model
/-! # Decidable (Lean) equality of model values; not part of the C++ code -/
namespace Nebula.Value

mutual
/-- Structural equality of values (Lean equality, not `operator==`). -/
def same : Value → Value → Bool
  | .empty, .empty => true
  | .null a, .null b => a == b
  | .bool a, .bool b => a == b
  | .int a, .int b => a == b
  | .float a, .float b => a == b
  | .str a, .str b => a == b
  | .date a, .date b => a == b
  | .time a, .time b => a == b
  | .datetime a, .datetime b => a == b
  | .vertex ⟨v, t⟩, .vertex b => same v b.vid && sameTags t b.tags
  | .edge ⟨s, d, t, n, r, p⟩, .edge b =>
    same s b.src && same d b.dst && t == b.type && n == b.name && r == b.ranking && sameProps p b.props
  | .path ⟨⟨v, t⟩, s⟩, .path b => same v b.src.vid && sameTags t b.src.tags && sameSteps s b.steps
  | .list a, .list b => sameVec a b
  | .map a, .map b => sameProps a b
  | .set a, .set b => sameVec a b
  | .dataset c a, .dataset d b => c == d && sameRows a b
  | _, _ => false
def sameVec : List Value → List Value → Bool
  | [], [] => true
  | a :: as, b :: bs => same a b && sameVec as bs
  | _, _ => false
def sameRows : List (List Value) → List (List Value) → Bool
  | [], [] => true
  | a :: as, b :: bs => sameVec a b && sameRows as bs
  | _, _ => false
def sameProps : List (Bytes × Value) → List (Bytes × Value) → Bool
  | [], [] => true
  | (k, v) :: as, b :: bs => k == b.1 && same v b.2 && sameProps as bs
  | _, _ => false
def sameTags : List (Tag Value) → List (Tag Value) → Bool
  | [], [] => true
  | ⟨n, p⟩ :: as, b :: bs => n == b.name && sameProps p b.props && sameTags as bs
  | _, _ => false
def sameSteps : List (Step Value) → List (Step Value) → Bool
  | [], [] => true
  | ⟨⟨v, ts⟩, t, n, r, p⟩ :: as, b :: bs =>
    same v b.dst.vid && sameTags ts b.dst.tags && t == b.type && n == b.name && r == b.ranking &&
      sameProps p b.props && sameSteps as bs
  | _, _ => false
end

mutual
theorem same_iff : ∀ a b : Value, same a b = true ↔ a = b
  | .empty, b => by cases b <;> simp [same]
  | .null _, b => by cases b <;> simp [same]
  | .bool _, b => by cases b <;> simp [same]
  | .int _, b => by cases b <;> simp [same]
  | .float _, b => by cases b <;> simp [same]
  | .str _, b => by cases b <;> simp [same]
  | .date _, b => by cases b <;> simp [same]
  | .time _, b => by cases b <;> simp [same]
  | .datetime _, b => by cases b <;> simp [same]
  | .vertex ⟨v, t⟩, b => by
    cases b <;> simp [same]
    rename_i w; obtain ⟨v', t'⟩ := w; simp [same_iff v, sameTags_iff t]
  | .edge ⟨s, d, t, n, r, p⟩, b => by
    cases b <;> simp [same]
    rename_i w; obtain ⟨s', d', t', n', r', p'⟩ := w
    simp [same_iff s, same_iff d, sameProps_iff p, and_assoc]
  | .path ⟨⟨v, t⟩, s⟩, b => by
    cases b <;> simp [same]
    rename_i w; obtain ⟨⟨v', t'⟩, s'⟩ := w; simp [same_iff v, sameTags_iff t, sameSteps_iff s]
  | .list a, b => by cases b <;> simp [same, sameVec_iff a]
  | .map a, b => by cases b <;> simp [same, sameProps_iff a]
  | .set a, b => by cases b <;> simp [same, sameVec_iff a]
  | .dataset c a, b => by cases b <;> simp [same, sameRows_iff a]
theorem sameVec_iff : ∀ a b : List Value, sameVec a b = true ↔ a = b
  | [], b => by cases b <;> simp [sameVec]
  | a :: as, b => by cases b <;> simp [sameVec, same_iff a, sameVec_iff as]
theorem sameRows_iff : ∀ a b : List (List Value), sameRows a b = true ↔ a = b
  | [], b => by cases b <;> simp [sameRows]
  | a :: as, b => by cases b <;> simp [sameRows, sameVec_iff a, sameRows_iff as]
theorem sameProps_iff : ∀ a b : List (Bytes × Value), sameProps a b = true ↔ a = b
  | [], b => by cases b <;> simp [sameProps]
  | (k, v) :: as, b => by
    cases b <;> simp [sameProps, same_iff v, sameProps_iff as]
    rename_i w _; obtain ⟨k', v'⟩ := w; simp
theorem sameTags_iff : ∀ a b : List (Tag Value), sameTags a b = true ↔ a = b
  | [], b => by cases b <;> simp [sameTags]
  | ⟨n, p⟩ :: as, b => by
    cases b <;> simp [sameTags, sameProps_iff p, sameTags_iff as]
    rename_i w _; obtain ⟨k', v'⟩ := w; simp
theorem sameSteps_iff : ∀ a b : List (Step Value), sameSteps a b = true ↔ a = b
  | [], b => by cases b <;> simp [sameSteps]
  | ⟨⟨v, ts⟩, t, n, r, p⟩ :: as, b => by
    cases b <;> simp [sameSteps, same_iff v, sameTags_iff ts, sameProps_iff p, sameSteps_iff as]
    rename_i w _; obtain ⟨⟨v', ts'⟩, t', n', r', p'⟩ := w; simp [and_assoc]
end

instance : DecidableEq Value := fun a b => decidable_of_iff _ (same_iff a b)

end Nebula.Value

namespace Nebula
deriving instance DecidableEq for Tag, Vertex, Edge, Step, Path
example : (Value.list [.int 1]) ≠ (Value.list [.int 2]) := by decide +kernel
end Nebula
