import Verif.Regex.Spec
/-!
# Lemmas: what backtracking finds is the language
-/
namespace Nebula
namespace Regex

theorem cls_has (c : Cls) (x : UInt8) : c.has x = true ↔ ((∃ r ∈ c.ranges, r.1 ≤ x ∧ x ≤ r.2) ↔ c.neg = false) := by
  have : (c.ranges.any fun r => r.1 ≤ x && x ≤ r.2) = true ↔ ∃ r ∈ c.ranges, r.1 ≤ x ∧ x ≤ r.2 := by simp [List.any_eq_true]
  rw [← this]
  unfold Cls.has
  cases (c.ranges.any fun r => r.1 ≤ x && x ≤ r.2) <;> cases c.neg <;> simp

theorem mem_one {s t : St} {p : UInt8 → Bool} : t ∈ s.one p ↔ ∃ c r, s.rest = c :: r ∧ p c = true ∧ t = ⟨s.pos + 1, r, s.caps⟩ := by
  unfold St.one
  cases s.rest with
  | nil => simp
  | cons c r =>
    simp only [List.cons.injEq]
    split
    · rename_i h
      constructor
      · intro ht; exact ⟨c, r, ⟨rfl, rfl⟩, h, by simpa using ht⟩
      · rintro ⟨_, _, ⟨rfl, rfl⟩, _, rfl⟩; simp
    · rename_i h
      simp only [List.not_mem_nil, false_iff]
      rintro ⟨_, _, ⟨rfl, rfl⟩, h', _⟩; exact h h'

/-- What `run` gives is a match. -/
def Sound (r : Re) (s t : St) : Prop := ∃ u, s.rest = u ++ t.rest ∧ t.pos = s.pos + u.length ∧ Matches r s.pos u t.rest

theorem iterate_sound {a : Re} (h : ∀ s t, t ∈ run a s → Sound a s t) : ∀ (n : Nat) (s t : St), t ∈ iterate (run a) n s → Sound (.star a) s t
  | 0, s, t, ht => by
    simp only [iterate, List.mem_singleton] at ht
    subst ht
    exact ⟨[], rfl, rfl, .stop⟩
  | n + 1, s, t, ht => by
    simp only [iterate, List.mem_append, List.mem_flatMap, List.mem_filter, List.mem_singleton] at ht
    rcases ht with ⟨m, ⟨h1, _⟩, h2⟩ | rfl
    · obtain ⟨u, e1, e2, e3⟩ := h s m h1
      obtain ⟨v, f1, f2, f3⟩ := iterate_sound h n m t h2
      refine ⟨u ++ v, by rw [e1, f1, List.append_assoc], by rw [f2, e2, List.length_append]; omega, .more ?_ ?_⟩
      · rw [← f1]; exact e3
      · rw [← e2]; exact f3
    · exact ⟨[], rfl, rfl, .stop⟩

theorem run_sound : ∀ (r : Re) (s t : St), t ∈ run r s → Sound r s t
  | .empty, s, t, h => by
    simp only [run, List.mem_singleton] at h
    subst h; exact ⟨[], rfl, rfl, .empty⟩
  | .chr c, s, t, h => by
    simp only [run, mem_one] at h
    obtain ⟨d, r, h1, h2, rfl⟩ := h
    rw [beq_iff_eq] at h2; subst h2
    exact ⟨[d], by simp [h1], rfl, .chr⟩
  | .dot, s, t, h => by
    simp only [run, mem_one] at h
    obtain ⟨d, r, h1, h2, rfl⟩ := h
    simp only [notEol, ne_eq, Bool.and_eq_true, decide_eq_true_eq] at h2
    exact ⟨[d], by simp [h1], rfl, .dot h2.1 h2.2⟩
  | .cls c, s, t, h => by
    simp only [run, mem_one] at h
    obtain ⟨d, r, h1, h2, rfl⟩ := h
    exact ⟨[d], by simp [h1], rfl, .cls ((cls_has c d).1 h2)⟩
  | .seq a b, s, t, h => by
    simp only [run, List.mem_flatMap] at h
    obtain ⟨m, h1, h2⟩ := h
    obtain ⟨u, e1, e2, e3⟩ := run_sound a s m h1
    obtain ⟨v, f1, f2, f3⟩ := run_sound b m t h2
    refine ⟨u ++ v, by rw [e1, f1, List.append_assoc], by rw [f2, e2, List.length_append]; omega, .seq ?_ ?_⟩
    · rw [← f1]; exact e3
    · rw [← e2]; exact f3
  | .alt a b, s, t, h => by
    simp only [run, List.mem_append] at h
    rcases h with h | h
    · obtain ⟨u, e1, e2, e3⟩ := run_sound a s t h; exact ⟨u, e1, e2, .left e3⟩
    · obtain ⟨u, e1, e2, e3⟩ := run_sound b s t h; exact ⟨u, e1, e2, .right e3⟩
  | .star a, s, t, h => iterate_sound (run_sound a) _ s t (by simpa only [run] using h)
  | .opt a, s, t, h => by
    simp only [run, List.mem_append, List.mem_singleton] at h
    rcases h with h | rfl
    · obtain ⟨u, e1, e2, e3⟩ := run_sound a s t h; exact ⟨u, e1, e2, .once e3⟩
    · exact ⟨[], rfl, rfl, .none⟩
  | .group n a, s, t, h => by
    simp only [run, List.mem_map] at h
    obtain ⟨m, h, rfl⟩ := h
    obtain ⟨u, e1, e2, e3⟩ := run_sound a s m h; exact ⟨u, e1, e2, .group e3⟩
  | .bol, s, t, h => by
    simp only [run] at h
    split at h
    · rename_i hp
      simp only [List.mem_singleton] at h
      subst h; exact ⟨[], rfl, rfl, hp ▸ .bol⟩
    · cases h
  | .eol, s, t, h => by
    simp only [run] at h
    split at h
    · rename_i hp
      simp only [List.mem_singleton] at h
      subst h; exact ⟨[], rfl, rfl, by rw [hp]; exact .eol⟩
    · cases h

theorem iterate_self (f : St → List St) (n : Nat) (s : St) : s ∈ iterate f n s := by cases n <;> simp [iterate]

/-- More steps than characters change nothing. -/
theorem iterate_fuel (f : St → List St) : ∀ (n m : Nat) (s : St), s.rest.length ≤ n → s.rest.length ≤ m → iterate f n s = iterate f m s
  | 0, 0, _, _, _ => rfl
  | 0, m + 1, s, h, _ => by
    have h0 : s.rest.length = 0 := by omega
    simp [iterate, h0]
  | n + 1, 0, s, _, h => by
    have h0 : s.rest.length = 0 := by omega
    simp [iterate, h0]
  | n + 1, m + 1, s, h1, h2 => by
    simp only [iterate]
    congr 1
    have : ∀ (l : List St), (∀ t ∈ l, t.rest.length < s.rest.length) → l.flatMap (iterate f n) = l.flatMap (iterate f m) := by
      intro l hl
      induction l with
      | nil => rfl
      | cons a l ih =>
        have ha := hl a List.mem_cons_self
        rw [List.flatMap_cons, List.flatMap_cons, ih fun t ht => hl t (List.mem_cons_of_mem _ ht),
          iterate_fuel f n m a (by omega) (by omega)]
    exact this _ fun t ht => by simpa using (List.mem_filter.1 ht).2

/-- Every match is among what `run` gives. -/
theorem run_complete {r : Re} {k : Nat} {u t : Bytes} (h : Matches r k u t) :
    ∀ caps, ∃ caps', (⟨k + u.length, t, caps'⟩ : St) ∈ run r ⟨k, u ++ t, caps⟩ := by
  induction h with
  | empty => intro caps; exact ⟨caps, by simp [run]⟩
  | chr => intro caps; exact ⟨caps, by simp [run, St.one]⟩
  | dot h1 h2 => intro caps; exact ⟨caps, by simp [run, St.one, notEol, h1, h2]⟩
  | @cls neg rs c k t h => intro caps; exact ⟨caps, by rw [run, mem_one]; exact ⟨c, t, rfl, (cls_has ⟨neg, rs⟩ c).2 h, rfl⟩⟩
  | @seq a b k u v t _ _ ih1 ih2 =>
    intro caps
    obtain ⟨c1, h1⟩ := ih1 caps
    obtain ⟨c2, h2⟩ := ih2 c1
    refine ⟨c2, ?_⟩
    rw [run, List.mem_flatMap, List.append_assoc, List.length_append, ← Nat.add_assoc]
    exact ⟨_, h1, h2⟩
  | left _ ih => intro caps; obtain ⟨c, h⟩ := ih caps; exact ⟨c, by rw [run]; exact List.mem_append_left _ h⟩
  | right _ ih => intro caps; obtain ⟨c, h⟩ := ih caps; exact ⟨c, by rw [run]; exact List.mem_append_right _ h⟩
  | stop => intro caps; exact ⟨caps, by rw [run]; exact iterate_self _ _ _⟩
  | @more a k u v t _ _ ih1 ih2 =>
    intro caps
    obtain ⟨c1, h1⟩ := ih1 caps
    cases u with
    | nil =>
      obtain ⟨c2, h2⟩ := ih2 caps
      exact ⟨c2, by simpa using h2⟩
    | cons x u =>
      obtain ⟨c2, h2⟩ := ih2 c1
      refine ⟨c2, ?_⟩
      rw [run] at h2 ⊢
      rw [show k + ((x :: u) ++ v).length = k + (x :: u).length + v.length by simp; omega, List.append_assoc]
      rw [show ((⟨k, (x :: u) ++ (v ++ t), caps⟩ : St).rest.length) = (u ++ (v ++ t)).length + 1 from rfl, iterate]
      refine List.mem_append_left _ (List.mem_flatMap.2 ⟨_, List.mem_filter.2 ⟨h1, ?_⟩, ?_⟩)
      · simp; omega
      · rw [iterate_fuel _ _ ((⟨k + (x :: u).length, v ++ t, c1⟩ : St).rest.length) _ (by simp) (by simp)]
        exact h2
  | none => intro caps; exact ⟨caps, by simp [run]⟩
  | once _ ih => intro caps; obtain ⟨c, h⟩ := ih caps; exact ⟨c, by rw [run]; exact List.mem_append_left _ h⟩
  | group _ ih => intro caps; obtain ⟨c, h⟩ := ih caps; exact ⟨_, by rw [run]; exact List.mem_map.2 ⟨_, h, rfl⟩⟩
  | bol => intro caps; exact ⟨caps, by simp [run]⟩
  | eol => intro caps; exact ⟨caps, by simp [run]⟩

theorem run_nonempty {r : Re} {k : Nat} {s : Bytes} {caps : List (Nat × Bytes)} :
    run r ⟨k, s, caps⟩ ≠ [] ↔ ∃ u t, s = u ++ t ∧ Matches r k u t := by
  constructor
  · intro h
    obtain ⟨t, ht⟩ := List.exists_mem_of_ne_nil _ h
    obtain ⟨u, e1, _, e3⟩ := run_sound r _ _ ht
    exact ⟨u, t.rest, e1, e3⟩
  · rintro ⟨u, t, rfl, h⟩ he
    obtain ⟨c, h⟩ := run_complete h caps
    rw [he] at h; cases h

theorem fullMatch_isSome (r : Re) (s : Bytes) : (fullMatch r s).isSome = true ↔ Matches r 0 s [] := by
  rw [fullMatch, Option.isSome_map, List.find?_isSome]
  constructor
  · rintro ⟨t, ht, h0⟩
    obtain ⟨u, e1, _, e3⟩ := run_sound r _ _ ht
    rw [List.isEmpty_iff] at h0
    rw [h0, List.append_nil] at e1
    change s = u at e1
    rw [e1]
    rw [h0] at e3
    exact e3
  · intro h
    obtain ⟨c, h⟩ := run_complete h []
    rw [List.append_nil] at h
    exact ⟨_, h, rfl⟩

theorem matchAt_isSome (r : Re) (pos : Nat) (s : Bytes) : (matchAt r pos s).isSome = true ↔ ∃ u t, s = u ++ t ∧ Matches r pos u t := by
  rw [matchAt, Option.isSome_map, ← run_nonempty (caps := [])]
  cases run r ⟨pos, s, []⟩ <;> simp

theorem searchFrom_isSome (r : Re) : ∀ (s : Bytes) (pos : Nat), (searchFrom r pos s).isSome = true ↔
    ∃ p u t, s = p ++ u ++ t ∧ Matches r (pos + p.length) u t
  | [], pos => by
    rw [searchFrom, matchAt_isSome]
    constructor
    · rintro ⟨u, t, h1, h2⟩; exact ⟨[], u, t, h1, h2⟩
    · rintro ⟨p, u, t, h1, h2⟩
      have : p = [] := by
        cases p with
        | nil => rfl
        | cons => simp at h1
      subst this; exact ⟨u, t, h1, h2⟩
  | c :: s, pos => by
    have key : (searchFrom r pos (c :: s)).isSome = true ↔
        (matchAt r pos (c :: s)).isSome = true ∨ (searchFrom r (pos + 1) s).isSome = true := by
      rw [searchFrom]
      cases matchAt r pos (c :: s) <;> simp
    rw [key, matchAt_isSome, searchFrom_isSome r s]
    constructor
    · rintro (⟨u, t, h1, h2⟩ | ⟨p, u, t, h1, h2⟩)
      · exact ⟨[], u, t, h1, h2⟩
      · exact ⟨c :: p, u, t, by rw [h1]; rfl, by rw [List.length_cons, show pos + (p.length + 1) = pos + 1 + p.length by omega]; exact h2⟩
    · rintro ⟨p, u, t, h1, h2⟩
      cases p with
      | nil => exact .inl ⟨u, t, h1, h2⟩
      | cons d p =>
        simp only [List.cons_append, List.cons.injEq] at h1
        exact .inr ⟨p, u, t, h1.2, by rw [List.length_cons, show pos + (p.length + 1) = pos + 1 + p.length by omega] at h2; exact h2⟩

end Regex
end Nebula
