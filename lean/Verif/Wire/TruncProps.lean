import Verif.Wire.Stable
/-!
# Truncated serialisations (C70)
-/
namespace Nebula
namespace Wire

/-- C70: whatever follows the bytes that make up a value is left alone and does not influence it: a
successful read returns the end of its input, and reading the consumed part followed by anything else
gives the same value and leaves exactly that. -/
theorem C70_local (bs : Bytes) (v : Value) (r : Bytes) (h : deserialize bs = some (v, r)) :
    ∃ c, bs = c ++ r ∧ ∀ s, deserialize (c ++ s) = some (v, s) := by
  obtain ⟨c, hc, hs⟩ := stab_deserialize (bs.length + 1) bs v r h
  exact ⟨c, hc, hs (by rw [hc]; simp; omega)⟩

/-- C70: a serialisation of which the end is missing is rejected, at whatever byte it is cut off. -/
theorem C70_truncated {bits : F64 → Nat} (hb : BitsOk bits) (v : Value) (hv : Fits v) (p q : Bytes)
    (h : serialize bits v = p ++ q) (hq : q ≠ []) : deserialize p = none := by
  cases hd : deserialize p with
  | none => rfl
  | some x =>
    obtain ⟨u, r⟩ := x
    obtain ⟨c, rfl, hs⟩ := C70_local p u r hd
    have e := C67_image hb v hv []
    rw [List.append_nil, h, List.append_assoc, hs (r ++ q)] at e
    simp at e
    exact absurd e.2.2 hq

/-- Non-vacuity: a list of two values cut in the middle. -/
example {bits : F64 → Nat} (hb : BitsOk bits) :
    ∃ p q, serialize bits (.list [.int 1, .str [97]]) = p ++ q ∧ p ≠ [] ∧ q ≠ [] ∧ deserialize p = none := by
  have hv : Fits (.list [.int 1, .str [97]]) := .mk (by simp [FitsHere, Small]) (by
    intro x hx
    simp [Value.children] at hx
    rcases hx with rfl | rfl
    · exact .mk (by simp [FitsHere, InI64]) (by simp [Value.children])
    · exact .mk (by simp [FitsHere, Small]) (by simp [Value.children]))
  have hq : serialize bits (.list [.int 1, .str [97]]) = [204, 25, 44, 54] ++ [2, 0, 88, 1, 97, 0, 0, 0] := by rfl
  exact ⟨_, _, hq, by simp, by simp, C70_truncated hb _ hv _ _ hq (by simp)⟩

end Wire
end Nebula
