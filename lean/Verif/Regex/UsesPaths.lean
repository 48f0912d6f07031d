import Verif.Regex.Uses
import Verif.Fs.Path
/-!
# The patterns in the source (paths)
-/
namespace Nebula
namespace Regex

def notSlash : Cls := ⟨true, [(47, 47)]⟩
/-- `([^/]+)/?` with the group `n`. -/
def lastRe (n : Nat) : Re := .seq (.group n (.seq (Re.cls notSlash).plus .empty)) (.seq (.opt (.chr 47)) .empty)
def dirRe : Re := .seq (.group 1 (.seq (.star .dot) .empty)) (.seq (.chr 47) (lastRe 2))
def pieceRe : Re := .group 2 (.seq (Re.cls notSlash).plus (.seq (Re.chr 47).plus .empty))
def leadRe : Re := .seq (.star (.chr 47)) (.seq (.star pieceRe) .empty)
def baseRe : Re := .seq (.group 1 leadRe) (lastRe 3)

theorem parse_dir : parse (ascii "(.*)/([^/]+)/?") = some dirRe := by decide +kernel
theorem parse_base : parse (ascii "(/*([^/]+/+)*)([^/]+)/?") = some baseRe := by decide +kernel

theorem notSlash_has : notSlash.has = fun c => decide (c ≠ 47) := by
  funext c
  simp only [Cls.has, notSlash, List.any_cons, List.any_nil, Bool.or_false]
  by_cases h : c = 47
  · subst h; rfl
  · have : ¬ ((47 : UInt8) ≤ c ∧ c ≤ 47) := fun ⟨h1, h2⟩ => h (UInt8.le_antisymm h2 h1)
    simp only [ne_eq, h, not_false_eq_true, decide_true]
    rcases Bool.eq_false_or_eq_true (decide ((47 : UInt8) ≤ c) && decide (c ≤ 47)) with h' | h'
    · rw [Bool.and_eq_true, decide_eq_true_eq, decide_eq_true_eq] at h'; exact absurd h' this
    · rw [h']; rfl

/-- `/?` up to the end. -/
theorem slash_end (t : St) : (first atEnd (.seq (.opt (.chr 47)) .empty) t).map (·.caps) =
    if t.rest = [] ∨ t.rest = [47] then some t.caps else none := by
  rw [first, run_seq_empty, run, run, St.one]
  cases hr : t.rest with
  | nil => simp [atEnd, hr]
  | cons c r =>
    by_cases hc : c = 47
    · subst hc
      cases r with
      | nil => simp [atEnd]
      | cons d r => simp [atEnd, hr]
    · simp [hc, atEnd, hr]

theorem last_first (n : Nat) (t : St) : (first atEnd (lastRe n) t).map (·.caps) = (Fs.lastPiece t.rest).map fun b => (n, b) :: t.caps := by
  rw [lastRe, first_group_seq, run_seq_empty, run_plus (isOne_cls notSlash), notSlash_has, map_findSome]
  have hf : ∀ j, j ≤ t.rest.length → ((first atEnd (.seq (.opt (.chr 47)) .empty)
      ⟨(t.after j).pos, (t.after j).rest, (n, t.rest.take (t.rest.length - (t.after j).rest.length)) :: (t.after j).caps⟩).map (·.caps)) =
      if t.rest.drop j = [] ∨ t.rest.drop j = [47] then some ((n, t.rest.take j) :: t.caps) else none := by
    intro j hj
    rw [slash_end]
    have e : t.rest.length - (t.rest.length - j) = j := by omega
    simp only [St.after, List.length_drop, e]
  unfold Fs.lastPiece
  simp only
  generalize hm : (t.rest.takeWhile fun c => decide (c ≠ 47)).length = m
  have hle : m ≤ t.rest.length := by rw [← hm]; exact List.Sublist.length_le (List.takeWhile_sublist _)
  cases m with
  | zero =>
    rw [if_pos (List.length_eq_zero_iff.1 hm)]; rfl
  | succ m =>
    have hne : t.rest.takeWhile (fun c => decide (c ≠ 47)) ≠ [] := fun h => by rw [h] at hm; cases hm
    have ht : t.rest.take (m + 1) = t.rest.takeWhile fun c => decide (c ≠ 47) := by rw [← hm, take_takeWhile]
    rw [cuts, List.findSome?_cons, Nat.zero_add, hf _ hle, if_neg hne, ht]
    have hn : ((cuts t 0 m).findSome? fun x => (first atEnd (.seq (.opt (.chr 47)) .empty)
        ⟨x.pos, x.rest, (n, t.rest.take (t.rest.length - x.rest.length)) :: x.caps⟩).map (·.caps)) = none := cuts_none fun j h1 h2 => by
      rw [hf j (by omega), if_neg]
      obtain ⟨d, hd, hpd⟩ := takeWhile_get (p := fun c => decide (c ≠ 47)) (l := t.rest) (j := j) (by omega)
      rintro (h | h)
      · have := congrArg List.head? h
        rw [List.head?_drop, hd] at this; cases this
      · have := congrArg List.head? h
        rw [List.head?_drop, hd] at this
        simp at this
        subst this; simp at hpd
    rw [hn]
    by_cases hc : t.rest.drop (m + 1) = [] ∨ t.rest.drop (m + 1) = [47]
    · rw [if_pos hc, if_pos hc]; rfl
    · rw [if_neg hc, if_neg hc]; rfl

/-! ## dirname -/

theorem dir_tail (s : Bytes) (j : Nat) (hj : j ≤ s.length) (hall : (s.take j).all Fs.anyChar = true) :
    (first atEnd (.seq (.chr 47) (lastRe 2)) ⟨j, s.drop j, [(1, s.take j)]⟩).map (·.caps) = (Fs.dirAt s j).map fun r => [(2, r.2), (1, r.1)] := by
  rw [first_chr, Fs.dirAt]
  simp only [List.head?_drop]
  by_cases h : s[j]? = some 47
  · rw [if_pos h, if_pos ⟨h, hall⟩, last_first, Option.map_map]
    simp only [St.after, List.drop_drop]
    rfl
  · rw [if_neg h, if_neg (fun h' => h h'.1)]; rfl

theorem anyChar_eq : Fs.anyChar = notEol := rfl

theorem all_take {p : UInt8 → Bool} {s : Bytes} {j : Nat} (h : j ≤ (s.takeWhile p).length) : (s.take j).all p = true := by
  have : s.take j = (s.takeWhile p).take j := by
    rw [← take_takeWhile p s, List.take_take, Nat.min_eq_left h]
  rw [this, List.all_eq_true]
  intro x hx
  exact List.all_eq_true.1 (List.all_takeWhile (p := p) (l := s)) x (List.mem_of_mem_take hx)

theorem not_all_take {p : UInt8 → Bool} : ∀ {s : Bytes} {j : Nat}, (s.takeWhile p).length < j → j ≤ s.length → (s.take j).all p = false
  | [], j, h1, h2 => by simp at h1 h2; omega
  | c :: s, 0, h1, _ => by omega
  | c :: s, j + 1, h1, h2 => by
    rw [List.take_succ_cons, List.all_cons]
    by_cases hp : p c = true
    · rw [List.takeWhile_cons_of_pos hp, List.length_cons] at h1
      rw [not_all_take (s := s) (j := j) (by omega) (by simpa using h2), Bool.and_false]
    · simp [hp]

theorem dirMatch_skip {s : Bytes} : ∀ {k : Nat}, (s.takeWhile Fs.anyChar).length ≤ k → k ≤ s.length → Fs.dirMatch s k = Fs.dirMatch s (s.takeWhile Fs.anyChar).length
  | 0, h, _ => by rw [Nat.le_zero.1 h]
  | k + 1, h, hk => by
    rcases Nat.lt_or_eq_of_le h with h1 | h1
    · rw [Fs.dirMatch, Fs.dirAt, if_neg (by rw [not_all_take h1 hk]; simp), Option.none_or, dirMatch_skip (by omega) (by omega)]
    · rw [← h1]

theorem dirCuts (s : Bytes) : ∀ m, m ≤ (s.takeWhile Fs.anyChar).length →
    ((cuts ⟨0, s, []⟩ 0 m ++ [(⟨0, s, []⟩ : St)]).findSome? fun x : St => (first atEnd (.seq (.chr 47) (lastRe 2))
      ⟨x.pos, x.rest, (1, s.take (s.length - x.rest.length)) :: x.caps⟩).map (·.caps)) = (Fs.dirMatch s m).map fun r => [(2, r.2), (1, r.1)]
  | 0, _ => by
    have := dir_tail s 0 (Nat.zero_le _) (all_take (Nat.zero_le _))
    rw [Fs.dirMatch, ← this]
    simp only [cuts, List.nil_append, List.findSome?_cons, List.findSome?_nil]
    rw [show s.length - s.length = 0 by omega, List.drop_zero]
    cases (first atEnd (.seq (.chr 47) (lastRe 2)) ⟨0, s, [(1, s.take 0)]⟩) <;> rfl
  | m + 1, h => by
    have hle : (s.takeWhile Fs.anyChar).length ≤ s.length := List.Sublist.length_le (List.takeWhile_sublist _)
    have := dir_tail s (m + 1) (by omega) (all_take h)
    rw [cuts, List.cons_append, List.findSome?_cons, dirCuts s m (by omega), Fs.dirMatch]
    simp only [St.after, List.length_drop, Nat.zero_add]
    rw [show s.length - (s.length - (m + 1)) = m + 1 by omega, this]
    cases Fs.dirAt s (m + 1) <;> rfl

theorem first_dir (s : Bytes) : (first atEnd dirRe ⟨0, s, []⟩).map (·.caps) = (Fs.dirMatch s s.length).map fun r => [(2, r.2), (1, r.1)] := by
  rw [dirRe, first_group_seq, run_seq_empty, run_star isOne_dot, map_findSome]
  have hle : (s.takeWhile Fs.anyChar).length ≤ s.length := List.Sublist.length_le (List.takeWhile_sublist _)
  rw [dirMatch_skip hle (Nat.le_refl _)]
  exact dirCuts s _ (Nat.le_refl _)

/-- **C63 (the pattern of `dirname`).** The groups that the model of `dirname` uses are those of the pattern. -/
theorem C63_dirname_pattern (s : Bytes) :
    (matchText (ascii "(.*)/([^/]+)/?") s).map (fun m => (m.group 1, m.group 2)) = Fs.dirMatch s s.length := by
  have h := first_dir s
  rw [matchText, parse_dir, Option.bind_some, fullMatch]
  rw [first] at h
  cases hr : (run dirRe ⟨0, s, []⟩).find? atEnd with
  | none =>
    rw [hr] at h
    cases hd : Fs.dirMatch s s.length with
    | none => rfl
    | some r => rw [hd] at h; cases h
  | some t =>
    rw [hr] at h
    cases hd : Fs.dirMatch s s.length with
    | none => rw [hd] at h; cases h
    | some r =>
      rw [hd] at h
      simp only [Option.map_some, Option.some.injEq] at h
      simp [Match.group, h, List.lookup_cons]

/-! ## basename -/

theorem matches_star_chr {c : UInt8} : ∀ (n : Nat) {k : Nat} {t : Bytes}, Matches (.star (.chr c)) k (List.replicate n c) t
  | 0, _, _ => .stop
  | n + 1, _, _ => .more (u := [c]) .chr (matches_star_chr n)

theorem all_replicate {c : UInt8} : ∀ {u : Bytes}, (∀ x ∈ u, x = c) → u = List.replicate u.length c := fun h => List.eq_replicate_iff.2 ⟨rfl, h⟩

/-- Pieces that end in slashes. -/
theorem matches_pieces : ∀ (n : Nat) (u : Bytes) (k : Nat) (t : Bytes), u.length ≤ n → u = [] ∨ (u.head? ≠ some 47 ∧ u.getLast? = some 47) →
    Matches (.star pieceRe) k u t
  | _, [], _, _, _, _ => .stop
  | 0, c :: u, _, _, h, _ => by simp at h
  | n + 1, c :: u, k, t, hl, h => by
    obtain ⟨h1, h2⟩ := h.resolve_left (by simp)
    have hc : c ≠ 47 := by simpa using h1
    let p : UInt8 → Bool := fun c => decide (c ≠ 47)
    let q : UInt8 → Bool := fun c => decide (c = 47)
    -- the characters, the slashes, the rest
    have e1 : u = u.takeWhile p ++ u.dropWhile p := (List.takeWhile_append_dropWhile).symm
    have hpa : ∀ x ∈ u.takeWhile p, notSlash.has x = true := fun x hx => by
      rw [notSlash_has]; exact List.all_eq_true.1 (List.all_takeWhile (p := p) (l := u)) x hx
    cases hd : u.dropWhile p with
    | nil =>
      exfalso
      rw [hd, List.append_nil] at e1
      have hmem : (47 : UInt8) ∈ c :: u := List.mem_of_getLast? h2
      rcases List.mem_cons.1 hmem with h' | h'
      · exact hc h'.symm
      · rw [e1] at h'
        have := List.all_eq_true.1 (List.all_takeWhile (p := p) (l := u)) _ h'
        simp [p] at this
    | cons d v =>
      have hdd : d = 47 := by
        have := List.head?_dropWhile_not p u
        rw [hd] at this
        simpa [p] using this
      subst hdd
      have e2 : v = v.takeWhile q ++ v.dropWhile q := (List.takeWhile_append_dropWhile).symm
      have hq : v.takeWhile q = List.replicate (v.takeWhile q).length 47 := all_replicate fun x hx => by
        have := List.all_eq_true.1 (List.all_takeWhile (p := q) (l := v)) x hx
        simpa [q] using this
      have hu : c :: u = ((c :: u.takeWhile p) ++ ((47 :: v.takeWhile q) ++ [])) ++ v.dropWhile q := by
        rw [List.append_nil, List.cons_append, List.cons_append, List.append_assoc, List.cons_append, ← e2, ← hd, ← e1]
      have hlen : (v.dropWhile q).length ≤ n := by
        have := congrArg List.length hu
        simp only [List.length_append, List.length_cons, List.length_nil] at this hl
        omega
      have hlast : v.dropWhile q = [] ∨ ((v.dropWhile q).head? ≠ some 47 ∧ (v.dropWhile q).getLast? = some 47) := by
        cases hw : v.dropWhile q with
        | nil => exact .inl rfl
        | cons x w =>
          right
          constructor
          · have := List.head?_dropWhile_not q v
            rw [hw] at this
            simp [q] at this
            simpa using this
          · rw [hu, hw, List.getLast?_append] at h2
            rw [List.getLast?_cons] at h2 ⊢
            simpa using h2
      rw [hu]
      refine .more (.group (.seq ?_ (.seq ?_ .empty))) (matches_pieces n _ _ _ hlen hlast)
      · exact .seq (u := [c]) (.cls ((cls_has notSlash c).1 (by rw [notSlash_has]; simpa using hc))) (matches_star_cls hpa)
      · rw [hq]
        exact .seq (u := [47]) .chr (matches_star_chr _)

theorem matches_lead {u : Bytes} (k : Nat) (t : Bytes) (h : u = [] ∨ u.getLast? = some 47) : Matches leadRe k u t := by
  let q : UInt8 → Bool := fun c => decide (c = 47)
  have e : u = u.takeWhile q ++ (u.dropWhile q ++ []) := by rw [List.append_nil]; exact (List.takeWhile_append_dropWhile).symm
  have hq : u.takeWhile q = List.replicate (u.takeWhile q).length 47 := all_replicate fun x hx => by
    have := List.all_eq_true.1 (List.all_takeWhile (p := q) (l := u)) x hx
    simpa [q] using this
  have hl : u.dropWhile q = [] ∨ ((u.dropWhile q).head? ≠ some 47 ∧ (u.dropWhile q).getLast? = some 47) := by
    cases hw : u.dropWhile q with
    | nil => exact .inl rfl
    | cons x w =>
      right
      constructor
      · have := List.head?_dropWhile_not q u
        rw [hw] at this
        simp [q] at this
        simpa using this
      · rcases h with h | h
        · rw [h] at hw; cases hw
        · rw [e, hw, List.append_nil, List.getLast?_append] at h
          rw [List.getLast?_cons] at h ⊢
          simpa using h
  rw [e]
  refine .seq ?_ (.seq (matches_pieces _ _ _ _ (Nat.le_refl _) hl) .empty)
  rw [hq]
  exact matches_star_chr _

/-- All or the last character. -/
def EndsSlash (u : Bytes) : Prop := u = [] ∨ u.getLast? = some 47

theorem EndsSlash.append {u v : Bytes} (hu : EndsSlash u) (hv : EndsSlash v) : EndsSlash (u ++ v) := by
  rcases hv with rfl | hv
  · rw [List.append_nil]; exact hu
  · right; rw [List.getLast?_append, hv]; rfl

theorem star_ends {a r : Re} {k : Nat} {u t : Bytes} (ha : ∀ k u t, Matches a k u t → EndsSlash u) (h : Matches r k u t) (hr : r = .star a) :
    EndsSlash u := by
  induction h with
  | stop => exact .inl rfl
  | more h1 _ _ ih2 => cases hr; exact (ha _ _ _ h1).append (ih2 rfl)
  | _ => cases hr

theorem chr_ends (k : Nat) (u t : Bytes) (h : Matches (.chr 47) k u t) : u.getLast? = some 47 := by cases h; rfl

theorem piece_ends (k : Nat) (u t : Bytes) (h : Matches pieceRe k u t) : EndsSlash u := by
  cases h with
  | group h =>
    cases h with
    | seq _ h =>
      cases h with
      | seq h h0 =>
        cases h0
        cases h with
        | seq h1 h2 =>
          have := chr_ends _ _ _ h1
          right
          rcases star_ends (fun k u t h => .inr (chr_ends k u t h)) h2 rfl with rfl | h3
          · rw [List.append_nil, List.append_nil, List.getLast?_append, this]; rfl
          · rw [List.append_nil, List.getLast?_append, List.getLast?_append, h3]; rfl

theorem lead_ends {k : Nat} {u t : Bytes} (h : Matches leadRe k u t) : EndsSlash u := by
  cases h with
  | seq h1 h2 =>
    cases h2 with
    | seq h2 h0 =>
      cases h0
      rw [List.append_nil]
      exact (star_ends (fun k u t h => .inr (chr_ends k u t h)) h1 rfl).append (star_ends piece_ends h2 rfl)

theorem findSome_iff {α β : Type} {f : α → Option β} : ∀ {l : List α}, (∀ x ∈ l, ∀ y ∈ l, ∀ a b, f x = some a → f y = some b → a = b) → ∀ b,
    l.findSome? f = some b ↔ ∃ x ∈ l, f x = some b
  | [], _, b => by simp
  | a :: l, h, b => by
    rw [List.findSome?_cons]
    cases ha : f a with
    | some c =>
      constructor
      · intro e; cases e; exact ⟨a, List.mem_cons_self, ha⟩
      · rintro ⟨x, hx, hb⟩
        rw [h a List.mem_cons_self x hx c b ha hb]
    | none =>
      simp only
      rw [findSome_iff fun x hx y hy => h x (List.mem_cons_of_mem _ hx) y (List.mem_cons_of_mem _ hy)]
      constructor
      · rintro ⟨x, hx, hb⟩; exact ⟨x, List.mem_cons_of_mem _ hx, hb⟩
      · rintro ⟨x, hx, hb⟩
        rcases List.mem_cons.1 hx with rfl | hx
        · rw [ha] at hb; cases hb
        · exact ⟨x, hx, hb⟩

theorem lastPiece_some {s b : Bytes} (h : Fs.lastPiece s = some b) : b ≠ [] ∧ (∀ x ∈ b, x ≠ 47) ∧ (s = b ∨ s = b ++ [47]) := by
  unfold Fs.lastPiece at h
  simp only at h
  split at h
  · cases h
  · rename_i hne
    split at h
    · rename_i hd
      cases h
      refine ⟨hne, fun x hx => by simpa using List.all_eq_true.1 (List.all_takeWhile (l := s)) x hx, ?_⟩
      have e := (List.takeWhile_append_dropWhile (p := fun c : UInt8 => decide (c ≠ 47)) (l := s)).symm
      rw [drop_takeWhile] at hd
      rcases hd with hd | hd
      · left; rw [hd, List.append_nil] at e; exact e
      · right; rw [hd] at e; exact e
    · cases h

theorem baseAt_unique {s b b' : Bytes} {k k' : Nat} (h : Fs.baseAt s k = some b) (h' : Fs.baseAt s k' = some b') (hlt : k < k') : False := by
  unfold Fs.baseAt at h h'
  split at h
  · split at h'
    · rename_i h2
      have h2 := h2.resolve_left (by omega)
      obtain ⟨_, h3, h4⟩ := lastPiece_some h
      obtain ⟨h5, _, h6⟩ := lastPiece_some h'
      have hlen : 0 < (s.drop k').length := by
        have := List.length_pos_iff.2 h5
        rcases h6 with e | e <;> rw [e] <;> simp <;> omega
      have hg : (s.drop k)[k' - 1 - k]? = some 47 := by rw [List.getElem?_drop, ← h2]; congr 1; omega
      rw [List.length_drop] at hlen
      rcases h4 with e | e
      · rw [e] at hg
        exact h3 47 (List.mem_of_getElem? hg) rfl
      · rw [e] at hg
        have hl := congrArg List.length e
        rw [List.length_drop, List.length_append, List.length_singleton] at hl
        rw [List.getElem?_append_left (by omega)] at hg
        exact h3 47 (List.mem_of_getElem? hg) rfl
    · cases h'
  · cases h

theorem baseMatch_iff {s b : Bytes} : ∀ {n : Nat}, Fs.baseMatch s n = some b ↔ ∃ k ≤ n, Fs.baseAt s k = some b
  | 0 => by
    rw [Fs.baseMatch]
    constructor
    · intro h; exact ⟨0, Nat.le_refl _, h⟩
    · rintro ⟨k, hk, h⟩; rw [Nat.le_zero.1 hk] at h; exact h
  | n + 1 => by
    rw [Fs.baseMatch, Option.or_eq_some_iff, baseMatch_iff]
    constructor
    · rintro (h | ⟨_, k, hk, h⟩)
      · exact ⟨n + 1, Nat.le_refl _, h⟩
      · exact ⟨k, by omega, h⟩
    · rintro ⟨k, hk, h⟩
      rcases Nat.lt_or_eq_of_le hk with h1 | h1
      · right
        refine ⟨?_, k, by omega, h⟩
        cases h2 : Fs.baseAt s (n + 1) with
        | none => rfl
        | some b' => exact (baseAt_unique h h2 h1).elim
      · left; rw [← h1]; exact h

theorem endsSlash_take {s : Bytes} {k : Nat} (hk : k ≤ s.length) : EndsSlash (s.take k) ↔ k = 0 ∨ s[k - 1]? = some 47 := by
  unfold EndsSlash
  cases k with
  | zero => simp
  | succ k =>
    have hne : s.take (k + 1) ≠ [] := by
      intro h; have := congrArg List.length h; simp at this; subst this; simp at hk
    simp only [hne, false_or, Nat.add_one_sub_one, Nat.add_one_ne_zero]
    rw [List.getLast?_eq_getElem?, List.length_take, Nat.min_eq_left hk, Nat.add_one_sub_one, List.getElem?_take, if_pos (by omega)]

/-- **C63 (the pattern of `basename`).** The third group of the pattern is what the model of `basename` uses. -/
theorem C63_basename_pattern (s : Bytes) : (matchText (ascii "(/*([^/]+/+)*)([^/]+)/?") s).map (·.group 3) = Fs.baseMatch s s.length := by
  rw [matchText, parse_base, Option.bind_some, fullMatch_group]
  rw [show (fun t : St => (t.caps.lookup 3).getD []) = (fun c => (List.lookup 3 c).getD []) ∘ (fun t : St => t.caps) from rfl, ← Option.map_map,
    baseRe, first_group_seq, map_findSome, map_findSome]
  have hf : ∀ t : St, (((first atEnd (lastRe 3) ⟨t.pos, t.rest, (1, s.take (s.length - t.rest.length)) :: t.caps⟩).map (·.caps)).map
      fun c => (List.lookup 3 c).getD []) = Fs.lastPiece t.rest := by
    intro t
    rw [last_first, Option.map_map]
    cases Fs.lastPiece t.rest with
    | none => rfl
    | some b => simp
  simp only [hf]
  have hmem : ∀ t ∈ run leadRe ⟨0, s, []⟩, ∀ b, Fs.lastPiece t.rest = some b → ∃ k ≤ s.length, Fs.baseAt s k = some b := by
    intro t ht b hb
    obtain ⟨u, e1, _, e3⟩ := run_sound _ _ _ ht
    simp only at e1
    have hk : u.length ≤ s.length := by rw [e1]; simp
    refine ⟨u.length, hk, ?_⟩
    have h1 : s.take u.length = u := by rw [e1]; simp
    have h2 : s.drop u.length = t.rest := by rw [e1]; simp
    have := (endsSlash_take hk).1 (by rw [h1]; exact lead_ends e3)
    rw [Fs.baseAt, if_pos this, h2, hb]
  have hun : ∀ k k' b b', Fs.baseAt s k = some b → Fs.baseAt s k' = some b' → b = b' := by
    intro k k' b b' h h'
    rcases Nat.lt_trichotomy k k' with h1 | h1 | h1
    · exact (baseAt_unique h h' h1).elim
    · subst h1; rw [h] at h'; exact Option.some.inj h'
    · exact (baseAt_unique h' h h1).elim
  apply Option.ext
  intro b
  rw [baseMatch_iff, findSome_iff]
  · constructor
    · rintro ⟨t, ht, hb⟩; exact hmem t ht b hb
    · rintro ⟨k, hk, hb⟩
      unfold Fs.baseAt at hb
      split at hb
      · rename_i hc
        obtain ⟨caps, hcaps⟩ := run_complete (matches_lead 0 (s.drop k) ((endsSlash_take hk).2 hc)) []
        rw [List.take_append_drop] at hcaps
        exact ⟨_, hcaps, hb⟩
      · cases hb
  · intro x hx y hy a b ha hb
    obtain ⟨k, _, h1⟩ := hmem x hx a ha
    obtain ⟨k', _, h2⟩ := hmem y hy b hb
    exact hun _ _ _ _ h1 h2

end Regex
end Nebula
