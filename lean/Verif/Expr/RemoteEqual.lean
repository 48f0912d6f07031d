import Verif.Expr.RemoteProps
import Verif.Expr.ForwardProps
import Verif.Expr.CompareProps
/-! # C163: comparing expressions that were received -/
namespace Nebula
namespace Expr
open Wire (BitsOk Fits Plain)

theorem head_received {D : Bool → Bool → Prop} {R R' : Value → Value → Prop} {e f : Expr} (he : StorableHere e) (hc : ∀ v w, e = const v → f = const w → R v w → R' (Wire.wireImage v) (Wire.wireImage w))
    (h : SameHead R D e f) : SameHead R' D (received e) (received f) := by
  cases e <;> cases f <;> simp only [SameHead] at h <;>
    simp only [received, SameHead, receivedAll_eq, receivedEntries_eq, receivedCases_eq, receivedOpt_eq, List.length_map, Option.isSome_map, List.map_map, Function.comp_def] <;>
    first | exact h | exact hc _ _ rfl rfl h | exact he.elim

theorem alike_received {D : Bool → Bool → Prop} {R R' : Value → Value → Prop} {P : Value → Prop} (hR : ∀ v w, P v → P w → R v w → R' (Wire.wireImage v) (Wire.wireImage w)) {e f : Expr}
    (h : Alike R D e f) : All StorableHere e → All (ConstHere P) e → All (ConstHere P) f → Alike R' D (received e) (received f) := by
  induction h with
  | mk head kids ih =>
    intro hs he hf
    refine .mk (head_received hs.here (fun v w h1 h2 h => ?_) head) fun i x y hx hy => ?_
    · subst h1; subst h2; exact hR v w he.here hf.here h
    · rw [received_kids, List.getElem?_map, Option.map_eq_some_iff] at hx hy
      obtain ⟨x', hx, rfl⟩ := hx
      obtain ⟨y', hy, rfl⟩ := hy
      exact ih i x' y' hx hy (hs.kids _ (List.mem_of_getElem? hx)) (he.kids _ (List.mem_of_getElem? hx)) (hf.kids _ (List.mem_of_getElem? hy))

theorem storable_whole {e : Expr} (h : Storable e) : All WholeHere e ∧ All NoTextHere e :=
  ⟨h.imp fun x hx => by cases x <;> first | trivial | exact hx.elim | exact hx.2, h.imp fun x hx => by cases x <;> first | trivial | exact hx.elim⟩

theorem eq_alike {e f : Expr} (he : Storable e) (hf : Storable f) : eqE false e f = some true ↔ Alike ValueEq (fun _ _ => True) e f := by
  obtain ⟨b, h1, h2⟩ := C94_meaning e f (storable_whole he).1 (storable_whole hf).1 (storable_whole he).2
  rw [h1, ← h2, Option.some.injEq]

/-- **C163 (equal expressions)** (partial: storable kinds, constants without elements in sets).  Two expressions that are equal where they come from are equal where they arrive. -/
theorem C163_equal_partial {bits : F64 → Nat} (hb : BitsOk bits) (e f : Expr) (he : Storable e) (hf : Storable f) (se : All (ConstHere Wire.Setless) e) (sf : All (ConstHere Wire.Setless) f)
    (h : eqE false e f = some true) : ∃ b c, encode bits e = some b ∧ encode bits f = some c ∧ ∀ r s, ∃ e' f', decode (b ++ r) = .ok (some e') r ∧ decode (c ++ s) = .ok (some f') s ∧
      eqE false e' f' = some true := by
  obtain ⟨b, h1, h2⟩ := C36_received hb e he
  obtain ⟨c, h3, h4⟩ := C36_received hb f hf
  refine ⟨b, c, h1, h3, fun r s => ⟨_, _, h2 r, h4 s, ?_⟩⟩
  rw [eq_alike (received_unchanged he).1 (received_unchanged hf).1]
  exact alike_received (fun v w hv hw h => Wire.image_beq v w (Wire.setless_apart hv) (Wire.setless_apart hw) h) ((eq_alike he hf).1 h) he se sf

/-- The sample of C36 equals itself, and its constants have no sets. -/
example : Storable sample ∧ All (ConstHere Wire.Setless) sample ∧ eqE false sample sample = some true := by
  have hc : All (ConstHere Wire.Setless) sample := by
    have leaf : ∀ {e : Expr}, e.children = [] → ConstHere Wire.Setless e → All (ConstHere Wire.Setless) e := fun h0 h => .mk h (by rw [h0]; simp)
    have cst : ∀ v : Value, v.children = [] → Wire.SetlessHere v → All (ConstHere Wire.Setless) (.const v) := fun v h0 h => leaf rfl (Value.Hered.mk h (by rw [h0]; simp))
    unfold sample
    refine .mk trivial fun x hx => ?_
    simp only [children, List.mem_cons, List.not_mem_nil, or_false] at hx
    rcases hx with rfl | rfl | rfl | rfl
    · refine .mk trivial fun x hx => ?_
      simp only [children, List.mem_cons, List.not_mem_nil, or_false] at hx
      rcases hx with rfl | rfl
      · exact cst _ rfl trivial
      · refine .mk trivial fun x hx => ?_
        simp only [children, List.mem_cons, List.not_mem_nil, or_false] at hx
        subst hx; exact leaf rfl trivial
    · refine .mk trivial fun x hx => ?_
      simp [children] at hx
      rcases hx with rfl | rfl | rfl
      · exact cst _ rfl trivial
      · exact cst _ rfl trivial
      · refine .mk trivial fun x hx => ?_
        simp only [children, List.mem_cons, List.not_mem_nil, or_false] at hx
        subst hx; exact leaf rfl trivial
    · refine .mk trivial fun x hx => ?_
      simp [children] at hx
      rcases hx with rfl | rfl
      · exact leaf rfl trivial
      · exact cst _ rfl trivial
    · refine .mk trivial fun x hx => ?_
      simp [children] at hx
      subst hx
      refine .mk trivial fun x hx => ?_
      simp [children] at hx
      subst hx; exact leaf rfl trivial
  exact ⟨sample_storable, hc, by decide +kernel⟩

end Expr
end Nebula
