import Verif.Wire.Props
/-! # C67: a map whose keys are sent more than once -/
namespace Nebula
namespace Wire

section poly
variable {V : Type}

theorem lookup_mapSet (m : Props V) (k j : Bytes) (v : V) :
    (mapSet m k v).lookup j = if j = k then some v else m.lookup j := by
  have h1 : ∀ m : Props V, k ∈ m.map Prod.fst →
      (m.map fun kv => if kv.1 == k then (k, v) else kv).lookup j = if j = k then some v else m.lookup j := by
    intro m
    induction m with
    | nil => intro h; cases h
    | cons x m ih =>
      intro h
      obtain ⟨a, b⟩ := x
      have hno : k ∉ m.map Prod.fst → (m.map fun kv => if kv.1 == k then (k, v) else kv) = m := by
        intro h
        conv => rhs; rw [← List.map_id m]
        apply List.map_congr_left
        intro kv hkv
        rw [if_neg]; · rfl
        intro e; exact h (List.mem_map.2 ⟨kv, hkv, by simpa using e⟩)
      rw [List.map_cons]
      by_cases e : a = k
      · subst e
        simp only [BEq.rfl, if_true, List.lookup_cons]
        by_cases ej : j = a
        · subst ej; simp
        · rw [if_neg ej, beq_eq_false_iff_ne.2 ej]
          by_cases hm : a ∈ m.map Prod.fst
          · have := ih hm; rw [if_neg ej] at this; exact this
          · rw [hno hm]
      · have hm : k ∈ m.map Prod.fst := by
          rcases List.mem_cons.1 h with h | h
          · exact absurd h.symm e
          · exact h
        have ea : ((a, b).1 == k) = false := beq_eq_false_iff_ne.2 e
        rw [if_neg (by rw [ea]; simp), List.lookup_cons, List.lookup_cons, ih hm]
        cases hja : j == a with
        | false => rfl
        | true =>
          have : j = a := by simpa using hja
          simp [show ¬ j = k by rw [this]; exact e]
  unfold mapSet
  by_cases h : (m.any fun kv => kv.1 == k) = true
  · rw [if_pos h]
    apply h1
    obtain ⟨x, hx, he⟩ := List.any_eq_true.1 h
    exact List.mem_map.2 ⟨x, hx, by simpa using he⟩
  · rw [if_neg h]
    have hm : ∀ m : Props V, (¬ (m.any fun kv => kv.1 == k) = true) →
        (m ++ [(k, v)]).lookup j = if j = k then some v else m.lookup j := by
      intro m
      induction m with
      | nil =>
        intro _
        simp only [List.nil_append, List.lookup_cons, List.lookup_nil]
        by_cases e : j = k
        · subst e; simp
        · rw [beq_eq_false_iff_ne.2 e, if_neg e]
      | cons x m ih =>
        intro hn
        obtain ⟨a, b⟩ := x
        rw [List.any_cons, Bool.or_eq_true, not_or] at hn
        rw [List.cons_append, List.lookup_cons, List.lookup_cons, ih hn.2]
        cases hja : j == a with
        | false => rfl
        | true =>
          have : j = a := by simpa using hja
          have hak : a ≠ k := fun e => hn.1 (by simp [e])
          simp [show ¬ j = k by rw [this]; exact hak]
    exact hm m h

theorem nodup_mapSet {m : Props V} (h : (m.map Prod.fst).Nodup) (k : Bytes) (v : V) : ((mapSet m k v).map Prod.fst).Nodup := by
  by_cases hk : k ∈ m.map Prod.fst
  · unfold mapSet
    rw [if_pos]
    · rw [List.map_map]
      have : m.map (Prod.fst ∘ fun kv => if kv.1 == k then (k, v) else kv) = m.map Prod.fst := by
        apply List.map_congr_left
        intro kv _
        simp only [Function.comp]
        by_cases e : kv.1 = k
        · rw [if_pos (by simpa using e), e]
        · rw [if_neg (by simpa using e)]
      rw [this]; exact h
    · obtain ⟨x, hx, he⟩ := List.mem_map.1 hk
      exact List.any_eq_true.2 ⟨x, hx, by simpa using he⟩
  · rw [mapSet_new hk, List.map_append, List.nodup_append]
    refine ⟨h, by simp, fun a ha b hb => ?_⟩
    simp at hb
    subst hb; intro e; subst e; exact hk ha

theorem foldl_last : ∀ (l m : Props V) (j : Bytes), (m.map Prod.fst).Nodup →
    (l.foldl (fun m kv => mapSet m kv.1 kv.2) m).lookup j = (l.reverse.lookup j).or (m.lookup j) ∧
    ((l.foldl (fun m kv => mapSet m kv.1 kv.2) m).map Prod.fst).Nodup
  | [], m, j, h => ⟨rfl, h⟩
  | (k, v) :: l, m, j, h => by
    obtain ⟨a, b⟩ := foldl_last l (mapSet m k v) j (nodup_mapSet h k v)
    refine ⟨?_, b⟩
    rw [List.foldl_cons, a, lookup_mapSet, List.reverse_cons]
    have happ : ∀ (m n : Props V), (m ++ n).lookup j = (m.lookup j).or (n.lookup j) := by
      intro m n
      induction m with
      | nil => rfl
      | cons x m ih =>
        obtain ⟨a, b⟩ := x
        simp only [List.cons_append, List.lookup_cons]
        cases j == a <;> simp [ih]
    rw [happ, Option.or_assoc]
    congr 1
    by_cases e : j = k
    · subst e; simp
    · simp only [List.lookup_cons, List.lookup_nil, beq_eq_false_iff_ne.2 e, if_neg e, Option.none_or]

end poly

/-- **C67** (repeated keys).  If a map arrives in which a key is sent more than once, the last value sent for
a key is the one read, every key once, and exactly the bytes of the map are consumed. -/
theorem C67_repeated_key {bits : F64 → Nat} (hb : BitsOk bits) (l s : Props Value) (hl : Small l.length)
    (hk : ∀ kv ∈ l, Small kv.1.length) (hv : ∀ kv ∈ l, Fits kv.2) (f : Nat)
    (hf : ∀ kv ∈ l, (serialize bits kv.2).length ≤ f) (rest : Bytes) :
    ∃ m, (mapReader (readValue f) .empty).read s (writeVMap (serialize bits) l ++ rest) = some (m, rest) ∧
      (∀ k, m.lookup k = (l.reverse.lookup k).map wireImage) ∧ (m.map Prod.fst).Nodup := by
  have hr : ∀ rest, readProps (readValue f .empty) (writeProps (serialize bits) l ++ rest) =
      some ((l.map fun kv => (kv.1, wireImage kv.2)).foldl (fun m kv => mapSet m kv.1 kv.2) [], rest) := by
    intro rest
    rw [readProps, writeProps, List.append_assoc]
    by_cases h0 : l.length = 0
    · have : l = [] := List.length_eq_zero_iff.1 h0
      subst this
      simp [readMapHeader_zero]
    · rw [readMapHeader_write hl h0 (by decide) (by decide)]
      simp only [h0, if_false, and_self, if_true]
      rw [readN_write _ _ (fun kv => (kv.1, wireImage kv.2)) l rest]
      intro kv hkv r
      simp only [List.append_assoc]
      rw [readBinary_write (hk kv hkv)]
      simp only
      rw [show readValue f Value.empty (serialize bits kv.2 ++ r) = some (wireImage kv.2, r) from
        readValue_write hb kv.2 (hv kv hkv) f _ r (hf kv hkv)]
  have hp : Parses (mapReader (readValue f) .empty) s (writeVMap (serialize bits) l).dropLast 1 1
      ((l.map fun kv => (kv.1, wireImage kv.2)).foldl (fun m kv => mapSet m kv.1 kv.2) []) := by
    rw [writeVMap, List.dropLast_concat]
    refine ⟨?_, fun k tail => ?_⟩
    · simp [fieldHeader_eq]
    · simp only [List.append_assoc]
      exact (run_field (curr := 0) (nid := 1) _ rfl (by decide) (by decide) (by decide) rfl (block_eq (hr _)))
  have hd := Parses.read hp rfl rest
  rw [writeVMap, List.dropLast_concat, ← List.append_assoc, ← writeVMap] at hd
  refine ⟨_, hd, fun k => ?_, (foldl_last _ [] [] (by simp)).2⟩
  rw [(foldl_last _ [] k (by simp)).1, List.lookup_nil, Option.or_none, ← List.map_reverse]
  generalize l.reverse = l'
  induction l' with
  | nil => rfl
  | cons x l' ih =>
    obtain ⟨a, b⟩ := x
    rw [List.map_cons, List.lookup_cons, List.lookup_cons, ih]
    cases k == a <;> rfl

example : Small ([([97], Value.bool true), ([97], .bool false)] : Props Value).length ∧
    ([([97], Value.bool true), ([97], .bool false)] : Props Value).reverse.lookup [97] = some (.bool false) := by
  refine ⟨by simp [Small], by simp⟩

end Wire
end Nebula
