import Verif.Regex.Routes
import Verif.Regex.Laws
import Verif.Web.RouterProps
/-!
# C157: routes whose text is a regular expression
-/
namespace Nebula
namespace Regex
open Web (Item Answer normPath)

/-! ## The routes of C61 are among them -/

theorem marks_items : ∀ (is : List Item) (k : Nat), (itemsRe (k + 1) is).marks = if groupsOf is = 0 then 0 else k + groupsOf is
  | [], _ => rfl
  | .lit c :: is, k => by
    have : groupsOf (.lit c :: is) = groupsOf is := by simp [groupsOf]
    rw [itemsRe, Re.marks, marks_items is k, this]; simp [Re.marks]
  | .any :: is, k => by
    have : groupsOf (.any :: is) = groupsOf is := by simp [groupsOf]
    rw [itemsRe, Re.marks, marks_items is k, this]; simp [Re.marks]
  | .group :: is, k => by
    have : groupsOf (.group :: is) = groupsOf is + 1 := by simp [groupsOf]
    rw [itemsRe, Re.marks, marks_items is (k + 1), this]
    simp only [Re.plus, Re.marks]
    split <;> simp_all <;> omega

/-- **C157 (the routes of C61).** A route that Web/Router models is accepted here too, answers the same requests, and gives the same parameters: C61 is about the same routes. -/
theorem C157_same {path : Bytes} {p : Web.Pattern} (h : Web.compile path = some p) (m k m' : Nat) (s : Bytes) :
    ∃ q, compileRoute path = some q ∧ (⟨m, q, k⟩ : AnyRoute).matches m' s = (⟨m, p, k⟩ : Web.Route).matches m' s ∧
      (⟨m, q, k⟩ : AnyRoute).generate s = (⟨m, p, k⟩ : Web.Route).generate s := by
  unfold Web.compile at h
  unfold compileRoute
  split at h
  · cases h
  · rename_i h47
    rw [if_neg h47]
    split at h
    · rename_i hc
      rw [if_pos hc]
      cases hs : Web.scan 0 path with
      | none => rw [hs] at h; cases h
      | some x =>
        obtain ⟨is, gs⟩ := x
        rw [hs] at h
        simp only at h
        split at h
        · rename_i hd
          cases h
          have hp := parse_items is (scan_plain _ 0 path _ _ (Nat.le_refl _) hs)
          have hg := scan_groups _ 0 path _ _ (Nat.le_refl _) hs
          have hsr : ∀ t, (search (itemsRe 1 is) t).map (·.groups (groupsOf is)) = Web.search is t := fun t => search_items_from is t 0
          have hm : (itemsRe 1 is).marks = gs.length := by
            have := marks_items is 0
            simp only [Nat.zero_add] at this
            rw [this, hg]; split <;> omega
          refine ⟨.expr (itemsRe 1 is) gs, by simp only [routeText_eq hs, hd, if_true, hp, Option.map_some], ?_, ?_⟩
          · simp only [AnyRoute.matches, Web.Route.matches]
            rw [← hsr]
            simp
          · simp only [AnyRoute.generate, Web.Route.generate, hm]
            rw [← hsr s]
            cases search (itemsRe 1 is) s with
            | none => rfl
            | some r =>
              have : (r.groups (groupsOf is)).length = gs.length := by simp [Match.groups, hg]
              simp [this, hg]
        · cases h
    · rename_i hc
      rw [if_neg hc]
      split at h
      · rename_i hl
        rw [if_pos hl]
        cases h
        exact ⟨_, rfl, rfl, rfl⟩
      · rename_i hl
        rw [if_neg hl]
        cases h
        exact ⟨_, rfl, rfl, rfl⟩

/-! ## What is answered -/

/-- **C157 (which requests).** A route with an expression answers a request of its method exactly if a piece of the path, without one slash at its end, belongs to the language of the expression. -/
theorem C157_matches (m k m' : Nat) (r : Re) (names : List Bytes) (path : Bytes) :
    (⟨m, .expr r names, k⟩ : AnyRoute).matches m' path = true ↔ m = m' ∧ ∃ a u b, normPath path = a ++ u ++ b ∧ Matches r a.length u b := by
  unfold AnyRoute.matches
  by_cases hm : m = m'
  · simp only [hm, ne_eq, not_true_eq_false, if_false, true_and]
    have := searchFrom_isSome r (normPath path) 0
    simp only [Nat.zero_add] at this
    exact this
  · simp [hm]

/-- The first route that matches. -/
def FirstAny (xs : List AnyRoute) (m : Nat) (path : Bytes) (x : AnyRoute) : Prop :=
  ∃ before after, xs = before ++ x :: after ∧ (∀ y ∈ before, y.matches m path = false) ∧ x.matches m path = true

theorem dispatch_cases (m : Nat) (path : Bytes) : ∀ xs : List AnyRoute,
    (dispatchAny xs (some m) path = some .notFound ∧ ∀ x ∈ xs, x.matches m path = false) ∨
    ∃ x, FirstAny xs m path x ∧ dispatchAny xs (some m) path = x.generate path
  | [] => .inl ⟨rfl, by simp⟩
  | x :: xs => by
    rw [dispatchAny]
    by_cases hx : x.matches m path = true
    · simp only [hx, if_true]
      exact .inr ⟨x, ⟨[], xs, rfl, by simp, hx⟩, rfl⟩
    · simp only [hx]
      rcases dispatch_cases m path xs with ⟨h1, h2⟩ | ⟨y, ⟨b, a, h1, h2, h3⟩, h4⟩
      · refine .inl ⟨h1, fun y hy => ?_⟩
        rcases List.mem_cons.mp hy with rfl | hy
        · simpa using hx
        · exact h2 y hy
      · refine .inr ⟨y, ⟨x :: b, a, by rw [h1]; rfl, fun z hz => ?_, h3⟩, h4⟩
        rcases List.mem_cons.mp hz with rfl | hz
        · simpa using hx
        · exact h2 z hz

theorem first_unique {xs : List AnyRoute} {m : Nat} {path : Bytes} {x y : AnyRoute} (hx : FirstAny xs m path x) (hy : FirstAny xs m path y) : x = y := by
  obtain ⟨b, a, e, h1, h2⟩ := hx
  obtain ⟨b', a', e', h1', h2'⟩ := hy
  subst e
  induction b generalizing b' with
  | nil =>
    cases b' with
    | nil => simp at e'; exact e'.1
    | cons z b' =>
      simp at e'
      have := h1' z (by simp)
      rw [← e'.1, h2] at this; cases this
  | cons z b ih =>
    cases b' with
    | nil =>
      simp at e'
      have := h1 z (by simp)
      rw [e'.1, h2'] at this; cases this
    | cons w b' =>
      simp at e'
      exact ih (fun y hy => h1 y (by simp [hy])) b' (fun y hy => h1' y (by simp [hy])) e'.2

/-- The route has as many groups as parameters. -/
def AnyRoute.Even (x : AnyRoute) : Prop := ∀ r names, x.pattern = .expr r names → names.length = r.marks

/-- **C157 (when the process ends).** A request of a known method ends the process exactly if the first route that matches it has groups of its own, or does not match the path as
it came, with the slash at its end. -/
theorem C157_dies (xs : List AnyRoute) (m : Nat) (path : Bytes) :
    dispatchAny xs (some m) path = none ↔ ∃ x r names, FirstAny xs m path x ∧ x.pattern = .expr r names ∧
      (names.length ≠ r.marks ∨ ¬ ∃ a u b, path = a ++ u ++ b ∧ Matches r a.length u b) := by
  have key : ∀ x : AnyRoute, x.generate path = none ↔ ∃ r names, x.pattern = .expr r names ∧
      (names.length ≠ r.marks ∨ ¬ ∃ a u b, path = a ++ u ++ b ∧ Matches r a.length u b) := by
    intro x
    unfold AnyRoute.generate
    cases hp : x.pattern with
    | exact p => simp
    | expr r names =>
      have hs := searchFrom_isSome r path 0
      simp only [Nat.zero_add] at hs
      simp only [search]
      constructor
      · intro h
        refine ⟨r, names, rfl, ?_⟩
        rw [← hs]
        cases hq : searchFrom r 0 path with
        | none => exact .inr (by simp)
        | some mm =>
          rw [hq] at h
          by_cases hl : names.length = r.marks
          · simp [hl] at h
          · exact .inl hl
      · rintro ⟨r', names', e, h⟩
        cases e
        rw [← hs] at h
        cases hq : searchFrom r 0 path with
        | none => rfl
        | some mm =>
          rw [hq] at h
          have hl : names.length ≠ r.marks := by simpa using h
          simp [hl]
  rcases dispatch_cases m path xs with ⟨h1, h2⟩ | ⟨x, h1, h2⟩
  · rw [h1]
    simp only [reduceCtorEq, false_iff]
    rintro ⟨x, r, names, ⟨b, a, e, _, h3⟩, _⟩
    rw [h2 x (by rw [e]; simp)] at h3
    cases h3
  · rw [h2, key]
    constructor
    · rintro ⟨r, names, h3, h4⟩; exact ⟨x, r, names, h1, h3, h4⟩
    · rintro ⟨y, r, names, h5, h3, h4⟩
      rw [first_unique h1 h5]
      exact ⟨r, names, h3, h4⟩

/-- **C157 (who answers).** If the process goes on, the request is answered by the handler of the first route that matches, and by 404 if there is none. The handler gets the texts of the
groups, under their names, of the leftmost match in the path as it came. -/
theorem C157_answer (xs : List AnyRoute) (m : Nat) (path : Bytes) (h : Nat) (ps : List (Bytes × Bytes)) :
    dispatchAny xs (some m) path = some (.handler h ps) ↔ ∃ x, FirstAny xs m path x ∧ x.h = h ∧
      ((∃ p, x.pattern = .exact p ∧ ps = []) ∨
       ∃ r names mm, x.pattern = .expr r names ∧ names.length = r.marks ∧ search r path = some mm ∧ ps = names.zip (mm.groups names.length)) := by
  have key : ∀ x : AnyRoute, x.generate path = some (.handler h ps) ↔ x.h = h ∧ ((∃ p, x.pattern = .exact p ∧ ps = []) ∨
       ∃ r names mm, x.pattern = .expr r names ∧ names.length = r.marks ∧ search r path = some mm ∧ ps = names.zip (mm.groups names.length)) := by
    intro x
    unfold AnyRoute.generate
    cases hp : x.pattern with
    | exact p => simp [eq_comm]
    | expr r names =>
      cases hs : search r path with
      | none => simp [hs]
      | some mm =>
        by_cases hl : names.length = r.marks
        · simp [hl, hs, eq_comm]
        · simp [hl, hs]
  rcases dispatch_cases m path xs with ⟨h1, h2⟩ | ⟨x, h1, h2⟩
  · rw [h1]
    simp only [Option.some.injEq, reduceCtorEq, false_iff]
    rintro ⟨x, ⟨b, a, e, _, h3⟩, _⟩
    rw [h2 x (by rw [e]; simp)] at h3
    cases h3
  · rw [h2, key]
    constructor
    · intro h3; exact ⟨x, h1, h3⟩
    · rintro ⟨y, h5, h3⟩
      rw [first_unique h1 h5]
      exact h3

theorem C157_notFound (xs : List AnyRoute) (m : Nat) (path : Bytes) :
    dispatchAny xs (some m) path = some .notFound ↔ ∀ x ∈ xs, x.matches m path = false := by
  rcases dispatch_cases m path xs with ⟨h1, h2⟩ | ⟨x, h1, h2⟩
  · exact ⟨fun _ => h2, fun _ => h1⟩
  · rw [h2]
    constructor
    · intro h
      exfalso
      unfold AnyRoute.generate at h
      split at h
      · cases h
      · split at h
        · cases h
        · split at h <;> cases h
    · intro h
      obtain ⟨b, a, e, _, h3⟩ := h1
      rw [h x (by rw [e]; simp)] at h3
      cases h3

/-! ## Routes that are safe -/

theorem matches_bytes {r : Re} : ∀ (f pos : Nat) (s : Bytes) (c : UInt8),
    c ∈ (matches_ r f pos s).1.flatMap (·.prefix_) ++ (matches_ r f pos s).2 → c ∈ s
  | 0, _, s, c, h => by simpa [matches_] using h
  | f + 1, pos, s, c, h => by
    rw [matches_] at h
    cases hs : searchFrom r pos s with
    | none => rw [hs] at h; simpa using h
    | some m =>
      rw [hs] at h
      simp only at h
      split at h
      · simpa using h
      · obtain ⟨e, _, _⟩ := searchFrom_spec r s pos m hs
        rw [e]
        simp only [List.flatMap_cons, List.mem_append] at h
        rcases h with (h | h) | h
        · simp [h]
        · have := matches_bytes f _ m.suffix c (by simp only [List.mem_append]; exact .inl h)
          simp [this]
        · have := matches_bytes f _ m.suffix c (by simp only [List.mem_append]; exact .inr h)
          simp [this]

theorem routeText_bytes {path text : Bytes} {names : List Bytes} (h : routeText path = some (text, names)) (hd : (36 : UInt8) ∉ path) : (36 : UInt8) ∉ text := by
  rw [routeText] at h
  obtain ⟨r, _, e⟩ := Option.map_eq_some_iff.1 h
  cases e
  intro hc
  apply hd
  rcases List.mem_append.mp hc with hc | hc
  · obtain ⟨m, hm, hc⟩ := List.mem_flatMap.mp hc
    rcases List.mem_append.mp hc with hc | hc
    · exact matches_bytes path.length 0 path 36 (List.mem_append.mpr (.inl (List.mem_flatMap.mpr ⟨m, hm, hc⟩)))
    · exact absurd hc (by decide +kernel)
  · exact matches_bytes path.length 0 path 36 (List.mem_append.mpr (.inr hc))

/-- **C157 (safe routes).** If no route has a `$` in its text, and each has as many groups as parameters, no request of a known method with a path ends the process. -/
theorem C157_safe_partial (xs : List AnyRoute) (hx : ∀ x ∈ xs, x.Even ∧ ∃ text, (36 : UInt8) ∉ text ∧ compileRoute text = some x.pattern)
    (m : Nat) (path : Bytes) (hp : path ≠ []) : (dispatchAny xs (some m) path).isSome = true := by
  rw [Option.isSome_iff_ne_none]
  intro h
  obtain ⟨x, r, names, ⟨b, a, e, _, h3⟩, h4, h5⟩ := (C157_dies xs m path).mp h
  obtain ⟨h6, text, h7, h8⟩ := hx x (by rw [e]; simp)
  rcases h5 with h5 | h5
  · exact h5 (h6 r names h4)
  · apply h5
    have hn : NoEol r := by
      rw [h4] at h8
      unfold compileRoute at h8
      split at h8
      · cases h8
      · split at h8
        · cases ht : routeText text with
          | none => rw [ht] at h8; cases h8
          | some y =>
            obtain ⟨t, ns⟩ := y
            rw [ht] at h8
            simp only at h8
            split at h8
            · obtain ⟨r', h9, h10⟩ := Option.map_eq_some_iff.1 h8
              cases h10
              exact noEol h9 (routeText_bytes ht h7)
            · cases h8
        · split at h8 <;> cases h8
    obtain ⟨xm, xp, xh⟩ := x
    simp only at h4
    subst h4
    obtain ⟨_, a, u, b, h9, h10⟩ := (C157_matches _ _ _ _ _ _).mp h3
    rcases Web.normPath_cases path with hc | hc | hc
    · exact absurd hc.1 hp
    · exact ⟨a, u, b, by rw [hc, h9], h10⟩
    · exact ⟨a, u, b ++ [47], by rw [hc, h9]; simp, hn _ _ _ _ h10⟩

/-- A route with an optional letter at its end, and the root. -/
def sampleAny : List AnyRoute := ((addAny [] [] 0 (ascii "/tag/:id/edits?") 1).bind fun xs => addAny [] xs 0 (ascii "/") 2).getD []

example : sampleAny.length = 2 ∧ dispatchAny sampleAny (some 0) (ascii "/tag/7/edit/") = some (.handler 1 [(ascii "id", ascii "7")]) ∧
    dispatchAny sampleAny (some 0) (ascii "/tag/7/edits") = some (.handler 1 [(ascii "id", ascii "7")]) ∧
    dispatchAny sampleAny (some 0) (ascii "/tag/7/see") = some .notFound ∧ dispatchAny sampleAny (some 0) [] = some (.handler 2 []) := by decide +kernel

/-- They are safe. -/
example : ∀ x ∈ sampleAny, x.Even ∧ ∃ text, (36 : UInt8) ∉ text ∧ compileRoute text = some x.pattern := by
  have h1 : sampleAny = [⟨0, (compileRoute (ascii "/tag/:id/edits?")).get (by decide +kernel), 1⟩, ⟨0, .exact (ascii "/"), 2⟩] := by decide +kernel
  rw [h1]
  intro x hx
  rcases List.mem_cons.mp hx with rfl | hx
  · refine ⟨?_, ascii "/tag/:id/edits?", by decide +kernel, by simp⟩
    intro r names h
    have h2 : (match (compileRoute (ascii "/tag/:id/edits?")).get (by decide +kernel) with
      | .expr r names => decide (names.length = r.marks)
      | _ => true) = true := by decide +kernel
    simp only at h
    rw [h] at h2
    simpa using h2
  · obtain rfl := List.mem_singleton.mp hx
    exact ⟨fun r names h => (by cases h), ascii "/", by decide +kernel, by decide +kernel⟩

/-- The text of a route: that of the router and that of the route itself. -/
def fullText (pre path : Bytes) : Bytes := (if pre = [] then [] else [47] ++ pre) ++ (if path = [] then [47] else path)

theorem distinct_nodup : ∀ ns : List Bytes, Web.distinct ns = true ↔ ns.Nodup
  | [] => by simp [Web.distinct]
  | n :: ns => by simp [Web.distinct, distinct_nodup ns]

/-- **C157 (adding).** A route is added behind the others.  It is accepted when its text begins with a slash and, if it has a colon, no parameter occurs twice and
the text in which `([^/]+)` replaces the parameters is a regular expression. -/
theorem C157_add (pre : Bytes) (xs : List AnyRoute) (m : Nat) (path : Bytes) (h : Nat) (ys : List AnyRoute) :
    addAny pre xs m path h = some ys ↔ ∃ p, ys = xs ++ [⟨m, p, h⟩] ∧ (fullText pre path).head? = some 47 ∧
      if (58 : UInt8) ∈ fullText pre path then
        ∃ text names r, routeText (fullText pre path) = some (text, names) ∧ names.Nodup ∧ parse text = some r ∧ p = .expr r names
      else p = .exact (normPath (fullText pre path)) := by
  have e : addAny pre xs m path h = (compileRoute (fullText pre path)).map fun p => xs ++ [⟨m, p, h⟩] := by
    unfold addAny fullText
    by_cases h1 : pre = [] <;> simp only [h1, ne_eq, not_true_eq_false, not_false_eq_true, if_true, if_false, List.nil_append, List.singleton_append, List.cons_append] <;>
      (generalize compileRoute _ = o; cases o <;> rfl)
  rw [e]
  generalize fullText pre path = t
  have key : ∀ p, compileRoute t = some p ↔ t.head? = some 47 ∧
      if (58 : UInt8) ∈ t then ∃ text names r, routeText t = some (text, names) ∧ names.Nodup ∧ parse text = some r ∧ p = .expr r names
      else p = .exact (normPath t) := by
    intro p
    unfold compileRoute
    by_cases h1 : t.head? = some 47
    · rw [if_neg (by simpa using h1)]
      by_cases h2 : (58 : UInt8) ∈ t
      · rw [if_pos h2, if_pos h2]
        generalize routeText t = o
        cases o with
        | none => simp
        | some y =>
          obtain ⟨text, names⟩ := y
          simp only
          constructor
          · intro hh
            split at hh
            · rename_i hd
              obtain ⟨r, e1, e2⟩ := Option.map_eq_some_iff.1 hh
              exact ⟨h1, text, names, r, rfl, (distinct_nodup _).mp hd, e1, e2.symm⟩
            · cases hh
          · rintro ⟨_, text', names', r, e1, hn, e2, rfl⟩
            cases e1
            rw [if_pos ((distinct_nodup _).mpr hn), e2]; rfl
      · have h3 : t ≠ [] := by rintro rfl; cases h1
        rw [if_neg h2, if_neg h2, Web.normPath, if_neg h3]
        split <;> simp [h1, eq_comm]
    · rw [if_pos (by simpa using h1)]
      simp [h1]
  constructor
  · intro hh
    obtain ⟨p, e1, e2⟩ := Option.map_eq_some_iff.1 hh
    exact ⟨p, e2.symm, (key p).mp e1⟩
  · rintro ⟨p, rfl, hp⟩
    rw [(key p).mpr hp]; rfl

/-- Accepted and refused texts. -/
example : (addAny (ascii "v1") [] 0 (ascii "/tags?/:id") 1).isSome = true ∧ addAny [] [] 0 (ascii "/:id/:id") 1 = none ∧
    addAny [] [] 0 (ascii "/*/:id") 1 ≠ none ∧ addAny [] [] 0 (ascii "/(:id") 1 = none ∧ addAny [] [] 0 (ascii "tag") 1 = none := by decide +kernel

/-! ## Where it fails -/

/-- **C157, violated: unknown methods.** Once there is a route, a request with a method the HTTP library does not know ends in an exception, whatever the routes and the path are. -/
theorem C157_method_violated (xs : List AnyRoute) (path : Bytes) : dispatchAny xs none path = none ↔ xs ≠ [] := by
  cases xs with
  | nil => simp [dispatchAny]
  | cons x xs => simp [dispatchAny]

/-- **C157 fails for routes with groups of their own:** such a route is accepted, and any request it matches ends the process. -/
theorem C157_groups_violated {x : AnyRoute} {r : Re} {names : List Bytes} (hx : x.pattern = .expr r names) (hn : names.length ≠ r.marks) (xs : List AnyRoute)
    (m : Nat) (path : Bytes) (h : x.matches m path = true) : dispatchAny (x :: xs) (some m) path = none :=
  (C157_dies _ _ _).mpr ⟨x, r, names, ⟨[], xs, rfl, by simp, h⟩, hx, .inl hn⟩

/-- Such a route. -/
example : ∃ xs, addAny [] [] 0 (ascii "/(tag|edge)/:id") 1 = some xs ∧ dispatchAny xs (some 0) (ascii "/edge/7") = none ∧
    dispatchAny xs (some 0) (ascii "/space/7") = some .notFound := by
  refine ⟨(addAny [] [] 0 (ascii "/(tag|edge)/:id") 1).getD [], ?_, by decide +kernel, by decide +kernel⟩
  cases h : addAny [] [] 0 (ascii "/(tag|edge)/:id") 1 with
  | none => exact absurd h (by decide +kernel)
  | some _ => rfl

/-- **C157 fails for routes that are anchored at the end:** the route answers a path, and the same path with a slash behind it ends the process. -/
theorem C157_slash_violated : ∃ xs, addAny [] [] 0 (ascii "/tag/:id$") 1 = some xs ∧
    dispatchAny xs (some 0) (ascii "/tag/7") = some (.handler 1 [(ascii "id", ascii "7")]) ∧
    dispatchAny xs (some 0) (ascii "/tag/7/") = none := by
  refine ⟨(addAny [] [] 0 (ascii "/tag/:id$") 1).getD [], ?_, by decide +kernel, by decide +kernel⟩
  cases h : addAny [] [] 0 (ascii "/tag/:id$") 1 with
  | none => exact absurd h (by decide +kernel)
  | some _ => rfl

end Regex
end Nebula
