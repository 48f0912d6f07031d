import Verif.Expr.Objects
/-!
# C145: copies of expressions share nothing with the original
-/
namespace Nebula
namespace Objects

/-! ## Specification -/

/-- What can be seen from a pointer: nothing, or an object and what can be seen from its parts. -/
inductive Tree where
  | nil
  | node (l : Label) (ts : List Tree)

mutual
/-- From the pointer `p` the tree `t` is seen, and all objects of it are in `S`. -/
inductive Shows (h : Heap) (S : Nat → Prop) : Option Nat → Tree → Prop
  | null : Shows h S none .nil
  | node {a o ts} : S a → h.obj a = some o → ShowsL h S o.parts ts → Shows h S (some a) (.node o.label ts)
inductive ShowsL (h : Heap) (S : Nat → Prop) : List (Option Nat) → List Tree → Prop
  | nil : ShowsL h S [] []
  | cons {p ps t ts} : Shows h S p t → ShowsL h S ps ts → ShowsL h S (p :: ps) (t :: ts)
end

mutual
/-- An expression as a tree of objects: a call has a list of arguments, and its function was found for their number; a text search has an
argument; a label attribute has a label and a constant. -/
def tree : Expr → Tree
  | .const v => .node (.const v) []
  | .unary o e => .node (.unary o) [tree e]
  | .binary o l r => .node (.binary o) [tree l, tree r]
  | .labelAttribute l r => .node .labelAttribute [.node (.label l) [], .node (.const r) []]
  | .column i => .node (.column i) []
  | .logical o es => .node (.logical o) (trees es)
  | .cast t e => .node (.cast t) [tree e]
  | .call n es => .node (.call n es.length) [.node .args (trees es)]
  | .prop k r s p => .node (.prop k r s p) []
  | .vertex => .node .vertex []
  | .edge => .node .edge []
  | .uuid f => .node (.uuid f) []
  | .var n i => .node (.var n i) []
  | .versionedVar n v => .node (.versionedVar n) [treeO v]
  | .coll k es => .node (.coll k) (trees es)
  | .map kvs => .node (.map (kvs.map Prod.fst)) (treesKvs kvs)
  | .label n => .node (.label n) []
  | .case g c d cs => .node (.case g) (treeO c :: treeO d :: treesCases cs)
  | .predicate n i c f o => .node (.predicate n i o) [tree c, treeO f]
  | .listComp i c f m o => .node (.listComp i o) [tree c, treeO f, treeO m]
  | .reduce a i v c m o => .node (.reduce a v o) [tree i, tree c, tree m]
  | .text k a => .node (.text k) [.node (.textArg a) []]
  | .aggregate n d a => .node (.aggregate n d) [treeO a]
  | .range l lo hi => .node .range [tree l, treeO lo, treeO hi]
def trees : List Expr → List Tree
  | [] => []
  | e :: es => tree e :: trees es
def treesKvs : List (Bytes × Expr) → List Tree
  | [] => []
  | (_, e) :: es => tree e :: treesKvs es
def treesCases : List (Expr × Expr) → List Tree
  | [] => []
  | (w, t) :: es => tree w :: tree t :: treesCases es
def treeO : Option Expr → Tree
  | none => .nil
  | some e => tree e
end

/-- The expression `e` is at `a`, and all its objects are in `S`. -/
def Holds (h : Heap) (S : Nat → Prop) (a : Nat) (e : Expr) : Prop := Shows h S (some a) (tree e)

mutual
/-- What is seen from `p`, once `t` is seen wherever the object `x` is used: specification of the effect of a setter. -/
inductive Changed (h : Heap) (x : Nat) (t : Tree) : Option Nat → Tree → Prop
  | null : Changed h x t none .nil
  | here : Changed h x t (some x) t
  | node {a o ts} : a ≠ x → h.obj a = some o → ChangedL h x t o.parts ts → Changed h x t (some a) (.node o.label ts)
inductive ChangedL (h : Heap) (x : Nat) (t : Tree) : List (Option Nat) → List Tree → Prop
  | nil : ChangedL h x t [] []
  | cons {p ps u us} : Changed h x t p u → ChangedL h x t ps us → ChangedL h x t (p :: ps) (u :: us)
end

/-- No object is at an address not yet used, and no pointer leads to one. -/
structure Sound (h : Heap) : Prop where
  unused : ∀ a, h.next ≤ a → h.obj a = none
  parts : ∀ a o, h.obj a = some o → ∀ b, some b ∈ o.parts → b < h.next

/-- What a program may do later: make objects, and overwrite objects that are in `S` in any way. -/
inductive Edits (S : Nat → Prop) : Heap → Heap → Prop
  | refl (h) : Edits S h h
  | add {h h'} (o) : Edits S h h' → Edits S h (h'.add o).1
  | set {h h'} (a o) : S a → Edits S h h' → Edits S h (h'.set a o)

/-- There is an object in the pool `q` at `a`. -/
def Heap.InPool (h : Heap) (q a : Nat) : Prop := ∃ o, h.obj a = some o ∧ o.pool = q

/-- The number of objects of a tree, each counted as often as it is seen. -/
def Tree.size : Tree → Nat
  | .nil => 0
  | .node _ ts => 1 + sizes ts
where sizes : List Tree → Nat
  | [] => 0
  | t :: ts => t.size + sizes ts

/-! ## Trees -/

mutual
theorem Shows.agree {h h' : Heap} {S T : Nat → Prop} (e : ∀ a, S a → h'.obj a = h.obj a) (hst : ∀ a, S a → T a) :
    ∀ {p t}, Shows h S p t → Shows h' T p t
  | _, _, .null => .null
  | _, _, .node hs ho hp => .node (hst _ hs) ((e _ hs).trans ho) (ShowsL.agree e hst hp)
theorem ShowsL.agree {h h' : Heap} {S T : Nat → Prop} (e : ∀ a, S a → h'.obj a = h.obj a) (hst : ∀ a, S a → T a) :
    ∀ {p t}, ShowsL h S p t → ShowsL h' T p t
  | _, _, .nil => .nil
  | _, _, .cons a b => .cons (Shows.agree e hst a) (ShowsL.agree e hst b)
end

mutual
theorem Shows.unique {h : Heap} {S T : Nat → Prop} : ∀ {p t u}, Shows h S p t → Shows h T p u → t = u
  | _, _, _, .null, .null => rfl
  | _, _, _, .node _ ho hp, .node _ ho' hp' => by
    rw [ho] at ho'; cases ho'
    rw [ShowsL.unique hp hp']
theorem ShowsL.unique {h : Heap} {S T : Nat → Prop} : ∀ {p t u}, ShowsL h S p t → ShowsL h T p u → t = u
  | _, _, _, .nil, .nil => rfl
  | _, _, _, .cons a b, .cons a' b' => by rw [Shows.unique a a', ShowsL.unique b b']
end

mutual
/-- In a sound heap all of an expression is below the next address. -/
theorem Shows.within {h h' : Heap} {S : Nat → Prop} (hs : Sound h) (e : ∀ a, a < h.next → h'.obj a = h.obj a) :
    ∀ {p t}, Shows h' S p t → (∀ b, p = some b → b < h.next) → Shows h (fun a => S a ∧ a < h.next) p t
  | _, _, .null, _ => .null
  | _, _, .node (a := a) (o := o) ha ho hp, hb => by
    have hlt := hb a rfl
    have ho' : h.obj a = some o := (e a hlt).symm.trans ho
    exact .node ⟨ha, hlt⟩ ho' (ShowsL.within hs e hp (hs.parts a o ho'))
theorem ShowsL.within {h h' : Heap} {S : Nat → Prop} (hs : Sound h) (e : ∀ a, a < h.next → h'.obj a = h.obj a) :
    ∀ {ps ts}, ShowsL h' S ps ts → (∀ b, some b ∈ ps → b < h.next) → ShowsL h (fun a => S a ∧ a < h.next) ps ts
  | _, _, .nil, _ => .nil
  | _, _, .cons a b, hb => .cons (Shows.within hs e a fun x hx => hb x (by rw [hx]; exact List.mem_cons_self ..))
      (ShowsL.within hs e b fun x hx => hb x (List.mem_cons_of_mem _ hx))
end

/-- The number of parts of the first tree. -/
def countT : List Tree → Nat
  | .node _ us :: _ => us.length
  | _ => 0

theorem ShowsL.length {h : Heap} {S : Nat → Prop} : ∀ {ps ts}, ShowsL h S ps ts → ps.length = ts.length
  | _, _, .nil => rfl
  | _, _, .cons _ b => by simp [ShowsL.length b]

theorem ShowsL.count {h : Heap} {S : Nat → Prop} {ps ts} (hp : ShowsL h S ps ts) : h.count ps = countT ts := by
  cases hp with
  | nil => rfl
  | cons a b =>
    cases a with
    | null => rfl
    | node _ ho hp => simp only [Heap.count, ho, countT]; exact hp.length

mutual
/-- The copy of a tree. -/
def cloneT : Tree → Option Tree
  | .nil => none
  | .node l ts => (clonePartsT l 0 ts).map fun us => .node (relabel (countT us) l) us
def clonePartsT (l : Label) (i : Nat) : List Tree → Option (List Tree)
  | [] => some []
  | .nil :: ts => if nullable l i then (clonePartsT l (i + 1) ts).map (.nil :: ·) else none
  | .node l' us :: ts => (cloneT (.node l' us)).bind fun u => (clonePartsT l (i + 1) ts).map (u :: ·)
end

/-! ## Copying -/

theorem sound_add {h : Heap} (hs : Sound h) (o : Object) (ho : ∀ b, some b ∈ o.parts → b < h.next) : Sound (h.add o).1 := by
  refine ⟨?_, ?_⟩
  · intro a ha
    simp only [Heap.add] at ha ⊢
    rw [if_neg (by omega)]
    exact hs.unused a (by omega)
  · intro a o' h1 b hb
    simp only [Heap.add] at h1 ⊢
    split at h1
    · cases h1; have := ho b hb; omega
    · have := hs.parts a o' h1 b hb; omega

theorem Shows.inv {h : Heap} {S : Nat → Prop} {a : Nat} {l : Label} {ts : List Tree} (hp : Shows h S (some a) (.node l ts)) :
    ∃ o, S a ∧ h.obj a = some o ∧ o.label = l ∧ ShowsL h S o.parts ts := by
  cases hp with
  | node a b c => exact ⟨_, a, b, rfl, c⟩

/-- What a copy that returns has done. -/
def Copied (h : Heap) (q : Nat) (a : Nat) (r : Heap × Nat) : Prop :=
  Sound h → a < h.next → Sound r.1 ∧ (∀ x, x < h.next → r.1.obj x = h.obj x) ∧ r.2 < r.1.next ∧
    ∃ t t', Shows h (· < h.next) (some a) t ∧ cloneT t = some t' ∧ Shows r.1 (fun x => h.next ≤ x ∧ x < r.1.next) (some r.2) t' ∧
      r.1.next = h.next + t'.size ∧ (Shows h (h.InPool q) (some a) t → ∀ x, h.next ≤ x → x < r.1.next → r.1.InPool q x)

def CopiedParts (h : Heap) (q : Nat) (l : Label) (i : Nat) (ps : List (Option Nat)) (r : Heap × List (Option Nat)) : Prop :=
  Sound h → (∀ b, some b ∈ ps → b < h.next) → Sound r.1 ∧ (∀ x, x < h.next → r.1.obj x = h.obj x) ∧ (∀ b, some b ∈ r.2 → b < r.1.next) ∧
    ∃ ts us, ShowsL h (· < h.next) ps ts ∧ clonePartsT l i ts = some us ∧ ShowsL r.1 (fun x => h.next ≤ x ∧ x < r.1.next) r.2 us ∧
      r.1.next = h.next + Tree.size.sizes us ∧ (ShowsL h (h.InPool q) ps ts → ∀ x, h.next ≤ x → x < r.1.next → r.1.InPool q x)

theorem poolFor_eq {o : Object} {q : Nat} (h : o.pool = q) : o.poolFor q = q := by
  unfold Object.poolFor; split <;> first | rfl | exact h

theorem copy_spec : (∀ h q a r, copy h q a = some r → Copied h q a r) ∧ ∀ h q l i ps r, copyParts h q l i ps = some r → CopiedParts h q l i ps r := by
  apply copy.mutual_partial_correctness (motive_1 := Copied) (motive_2 := CopiedParts)
  · intro cp ih h q a r e hs ha
    simp only [Option.bind_eq_bind, Option.bind_eq_some_iff] at e
    obtain ⟨o, ho, ⟨h1, ps⟩, e1, e2⟩ := e
    obtain ⟨s1, s2, s3, ts, us, s4, s5, s6, s7, s8⟩ := ih _ _ _ _ _ _ e1 hs (hs.parts a o ho)
    simp only at s1 s2 s3 s6 s7 s8
    have e2 := Option.some.inj e2
    subst e2
    have hle : h.next ≤ h1.next := by omega
    refine ⟨sound_add s1 _ s3, ?_, by simp [Heap.add], .node o.label ts, .node (relabel (countT us) o.label) us, .node ha ho s4, ?_, ?_, ?_, ?_⟩
    · intro x hx
      simp only [Heap.add]
      rw [if_neg (by omega), s2 x hx]
    · rw [cloneT, s5]; rfl
    · have hc := s6.count
      simp only at hc ⊢
      rw [hc]
      have hl := ShowsL.agree (h' := (h1.add ⟨relabel (countT us) o.label, ps, o.poolFor q⟩).1) (T := fun x => h.next ≤ x ∧ x < h1.next + 1)
        (by intro x hx; simp only [Heap.add]; rw [if_neg (by omega)]) (by intro x hx; omega) s6
      exact Shows.node (o := ⟨relabel (countT us) o.label, ps, o.poolFor q⟩) (by constructor <;> simp [Heap.add] <;> omega) (by simp [Heap.add]) hl
    · simp only [Heap.add, Tree.size]; omega
    · intro hp x h1x h2x
      obtain ⟨o', hq, ho', _, hp⟩ := hp.inv
      rw [ho] at ho'; cases ho'
      obtain ⟨o', ho', hq⟩ := hq
      rw [ho] at ho'; cases ho'
      rw [poolFor_eq hq] at s8
      have h2x : x < h1.next + 1 := h2x
      by_cases hx : x = h1.next
      · exact ⟨_, if_pos hx, poolFor_eq hq⟩
      · obtain ⟨o', a1, a2⟩ := s8 hp x h1x (by omega)
        exact ⟨o', by simp only [Heap.add, if_neg hx, a1], a2⟩
  · intro cp cps ih1 ih2 h q l i ps r e hs hb
    match ps, e with
    | [], e =>
      cases e
      exact ⟨hs, fun _ _ => rfl, by simp, [], [], .nil, rfl, .nil, by simp [Tree.size.sizes], fun _ x h1 h2 => absurd h1 (by simp only at h2; omega)⟩
    | none :: ps, e =>
      simp only at e
      split at e
      · rename_i hn
        simp only [Option.bind_eq_bind, Option.bind_eq_some_iff] at e
        obtain ⟨⟨h1, qs⟩, e1, e2⟩ := e
        obtain ⟨s1, s2, s3, ts, us, s4, s5, s6, s7, s8⟩ := ih2 _ _ _ _ _ _ e1 hs (fun b hx => hb b (List.mem_cons_of_mem _ hx))
        cases e2
        refine ⟨s1, s2, ?_, .nil :: ts, .nil :: us, .cons .null s4, ?_, .cons .null s6, by simpa [Tree.size.sizes, Tree.size] using s7, ?_⟩
        · intro b hx
          rcases List.mem_cons.1 hx with hx | hx
          · cases hx
          · exact s3 b hx
        · rw [clonePartsT, if_pos hn, s5]; rfl
        · intro hp
          cases hp with
          | cons _ hp => exact s8 hp
      · cases e
    | some a :: ps, e =>
      simp only [Option.bind_eq_bind, Option.bind_eq_some_iff] at e
      obtain ⟨⟨h1, b⟩, e1, ⟨h2, qs⟩, e2, e3⟩ := e
      obtain ⟨c1, c2, c3, t, t', c4, c5, c6, c7, c8⟩ := ih1 _ _ _ _ e1 hs (hb a (List.mem_cons_self ..))
      simp only at c1 c2 c3 c6 c7
      obtain ⟨s1, s2, s3, ts, us, s4, s5, s6, s7, s8⟩ := ih2 _ _ _ _ _ _ e2 c1 (fun x hx => by have := hb x (List.mem_cons_of_mem _ hx); show x < h1.next; omega)
      cases e3
      simp only at s1 s2 s3 s6 s7 s8
      refine ⟨s1, fun x hx => (s2 x (by omega)).trans (c2 x hx), ?_, t :: ts, t' :: us, .cons c4 ?_, ?_, .cons ?_ ?_, ?_, ?_⟩
      · intro x hx
        rcases List.mem_cons.1 hx with hx | hx
        · cases hx; show b < h2.next; omega
        · exact s3 x hx
      · exact (ShowsL.within hs c2 s4 fun x hx => hb x (List.mem_cons_of_mem _ hx)).agree (fun _ _ => rfl) (fun _ hx => hx.2)
      · cases c4 with
        | node _ _ _ => rw [clonePartsT, c5, s5]; rfl
      · exact c6.agree (fun x hx => s2 x hx.2) (fun x hx => by show h.next ≤ x ∧ x < h2.next; omega)
      · exact s6.agree (fun _ _ => rfl) (fun x hx => by show h.next ≤ x ∧ x < h2.next; omega)
      · simp only [Tree.size.sizes]; omega
      · intro hp x h1x h2x
        cases hp with
        | cons p1 p2 =>
          by_cases hx : x < h1.next
          · obtain ⟨o, a1, a2⟩ := c8 p1 x h1x hx
            exact ⟨o, (s2 x hx).trans a1, a2⟩
          · have p2' := ShowsL.within hs (fun _ _ => rfl) p2 fun x hx => hb x (List.mem_cons_of_mem _ hx)
            refine s8 (p2'.agree (fun x hx => c2 x hx.2) (fun x hx => ?_)) x (by show h1.next ≤ x; omega) h2x
            obtain ⟨⟨o, a1, a2⟩, hl⟩ := hx
            exact ⟨o, (c2 x hl).trans a1, a2⟩

/-- Every tree that can be copied is copied. -/
theorem copy_total : (∀ t t', cloneT t = some t' → ∀ h S q a, Sound h → Shows h S (some a) t → ∃ r, copy h q a = some r) ∧
    ∀ ts us l i, clonePartsT l i ts = some us → ∀ h S q ps, Sound h → ShowsL h S ps ts → ∃ r, copyParts h q l i ps = some r := by
  have lt : ∀ {h : Heap} {S a t}, Sound h → Shows h S (some a) t → a < h.next := by
    intro h S a t hs hp
    cases hp with
    | node _ ho _ =>
      by_cases hc : a < h.next
      · exact hc
      · rw [hs.unused a (by omega)] at ho; cases ho
  have ltL : ∀ {h : Heap} {S ps ts}, Sound h → ShowsL h S ps ts → ∀ b, some b ∈ ps → b < h.next := by
    intro h S ps ts hs
    induction ps generalizing ts with
    | nil => intro _ b hb; cases hb
    | cons p ps ih =>
      intro hp b hb
      cases hp with
      | cons p1 p2 =>
        rcases List.mem_cons.1 hb with rfl | hb
        · exact lt hs p1
        · exact ih p2 b hb
  suffices key : ∀ n, (∀ t t', t.size ≤ n → cloneT t = some t' → ∀ h S q a, Sound h → Shows h S (some a) t → ∃ r, copy h q a = some r) ∧
      ∀ ts us l i, Tree.size.sizes ts ≤ n → clonePartsT l i ts = some us → ∀ h S q ps, Sound h → ShowsL h S ps ts → ∃ r, copyParts h q l i ps = some r from
    ⟨fun t t' e => (key t.size).1 t t' (Nat.le_refl _) e, fun ts us l i e => (key (Tree.size.sizes ts)).2 ts us l i (Nat.le_refl _) e⟩
  intro n
  induction n with
  | zero =>
    refine ⟨?_, ?_⟩
    · intro t t' ht e h S q a hs hp
      cases hp with
      | node _ _ _ => simp [Tree.size] at ht
    · intro ts
      induction ts with
      | nil =>
        intro us l i _ _ h S q ps hs hp
        cases hp
        exact ⟨_, by rw [copyParts]⟩
      | cons t ts iht =>
        intro us l i ht e h S q ps hs hp
        cases t with
        | node _ _ => simp [Tree.size.sizes, Tree.size] at ht
        | nil =>
          cases hp with
          | cons p1 p2 =>
            cases p1
            rw [clonePartsT] at e
            split at e
            · rename_i hn
              obtain ⟨us', e', _⟩ := Option.map_eq_some_iff.1 e
              obtain ⟨r, hr⟩ := iht us' l (i + 1) (by simpa [Tree.size.sizes, Tree.size] using ht) e' h S q _ hs p2
              exact ⟨_, by rw [copyParts, if_pos hn, hr]; rfl⟩
            · cases e
  | succ n ih =>
    have one : ∀ t t', t.size ≤ n + 1 → cloneT t = some t' → ∀ h S q a, Sound h → Shows h S (some a) t → ∃ r, copy h q a = some r := by
      intro t t' ht e h S q a hs hp
      cases hp with
      | node ha ho hp =>
        rename_i o ts
        rw [cloneT] at e
        obtain ⟨us, e', _⟩ := Option.map_eq_some_iff.1 e
        obtain ⟨r, hr⟩ := ih.2 ts us _ _ (by simp only [Tree.size] at ht; omega) e' h S (o.poolFor q) _ hs hp
        exact ⟨_, by rw [copy, ho]; simp only [Option.bind_eq_bind, Option.bind_some, hr]; rfl⟩
    refine ⟨one, ?_⟩
    intro ts
    induction ts with
    | nil =>
      intro us l i _ _ h S q ps hs hp
      cases hp
      exact ⟨_, by rw [copyParts]⟩
    | cons t ts iht =>
      intro us l i ht e h S q ps hs hp
      cases hp with
      | cons p1 p2 =>
        rename_i p ps
        cases t with
        | nil =>
          cases p1
          rw [clonePartsT] at e
          split at e
          · rename_i hn
            obtain ⟨us', e', _⟩ := Option.map_eq_some_iff.1 e
            obtain ⟨r, hr⟩ := iht us' l (i + 1) (by simpa [Tree.size.sizes, Tree.size] using ht) e' h S q _ hs p2
            exact ⟨_, by rw [copyParts, if_pos hn, hr]; rfl⟩
          · cases e
        | node l' vs =>
          cases p with
          | none => cases p1
          | some a =>
            rw [clonePartsT] at e
            obtain ⟨u, e1, e2⟩ := Option.bind_eq_some_iff.1 e
            obtain ⟨us', e3, _⟩ := Option.map_eq_some_iff.1 e2
            obtain ⟨⟨h1, b⟩, hr⟩ := one _ _ (by simp only [Tree.size.sizes] at ht; omega) e1 h S q a hs p1
            obtain ⟨c1, c2, _⟩ := copy_spec.1 _ _ _ _ hr hs (lt hs p1)
            have p2' : ShowsL h1 (fun x => S x ∧ x < h.next) ps ts :=
              (ShowsL.within hs (fun _ _ => rfl) p2 (ltL hs p2)).agree (fun x hx => c2 x hx.2) (fun _ hx => hx)
            obtain ⟨r, hr'⟩ := iht us' l (i + 1) (by simp only [Tree.size.sizes] at ht ⊢; omega) e3 h1 _ q _ c1 p2'
            exact ⟨_, by rw [copyParts, hr]; simp only [Option.bind_eq_bind, Option.bind_some, hr']; rfl⟩

/-! ## Expressions -/

theorem relabel_prop (n : Nat) (k : PropKind) (r s p : Bytes) : Tree.node (relabel n (.prop k r s p)) [] = tree (Expr.makeProp k s p) := by
  cases k <;> rfl

theorem trees_length : ∀ es : List Expr, (trees es).length = es.length
  | [] => rfl
  | _ :: es => by simp [trees, trees_length es]

theorem cloneL_length : ∀ {es fs : List Expr}, Expr.cloneL es = some fs → fs.length = es.length
  | [], _, h => by rw [Expr.cloneL] at h; cases h; rfl
  | e :: es, _, h => by
    simp only [Expr.cloneL, Option.bind_eq_bind, Option.bind_eq_some_iff, Option.some.injEq] at h
    obtain ⟨a, _, l, h2, rfl⟩ := h
    simp [cloneL_length h2]

theorem cloneKvs_keys : ∀ {es fs : List (Bytes × Expr)}, Expr.cloneKvs es = some fs → fs.map Prod.fst = es.map Prod.fst
  | [], _, h => by rw [Expr.cloneKvs] at h; cases h; rfl
  | (k, e) :: es, _, h => by
    simp only [Expr.cloneKvs, Option.bind_eq_bind, Option.bind_eq_some_iff, Option.some.injEq] at h
    obtain ⟨a, _, l, h2, rfl⟩ := h
    simp [cloneKvs_keys h2]

/-- A tree that is an object. -/
theorem tree_node (e : Expr) : ∃ l ts, tree e = .node l ts := by
  cases e <;> exact ⟨_, _, by rw [tree]⟩

theorem parts_cons (l : Label) (i : Nat) (e : Expr) (ts : List Tree) :
    clonePartsT l i (tree e :: ts) = (cloneT (tree e)).bind fun u => (clonePartsT l (i + 1) ts).map (u :: ·) := by
  obtain ⟨l', us, h⟩ := tree_node e
  rw [h, clonePartsT]

theorem parts_nil (l : Label) (i : Nat) (ts : List Tree) :
    clonePartsT l i (.nil :: ts) = if nullable l i then (clonePartsT l (i + 1) ts).map (.nil :: ·) else none := by rw [clonePartsT]

theorem parts_opt {l : Label} {i : Nat} (hn : nullable l i = true) (e : Option Expr) (ts : List Tree)
    (ih : ∀ x, e = some x → cloneT (tree x) = (Expr.clone x).map tree) :
    clonePartsT l i (treeO e :: ts) = (Expr.cloneO e).bind fun u => (clonePartsT l (i + 1) ts).map (treeO u :: ·) := by
  cases e with
  | none => rw [treeO, parts_nil, if_pos hn, Expr.cloneO]; simp [treeO]
  | some x =>
    rw [treeO, parts_cons, ih x rfl, Expr.cloneO]
    cases Expr.clone x <;> simp [treeO]

mutual
/-- The copy of the tree of an expression is the tree of its copy in Expr/Compare. -/
theorem cloneT_tree : ∀ e : Expr, cloneT (tree e) = (Expr.clone e).map tree
  | .const v => by simp [tree, cloneT, clonePartsT, Expr.clone, relabel]
  | .unary o e => by
    rw [tree, cloneT, parts_cons, cloneT_tree e, Expr.clone]
    cases Expr.clone e <;> simp [clonePartsT, tree, relabel]
  | .binary o l r => by
    rw [tree, cloneT, parts_cons, parts_cons, cloneT_tree l, cloneT_tree r, Expr.clone]
    cases Expr.clone l <;> cases Expr.clone r <;> simp [clonePartsT, tree, relabel]
  | .labelAttribute l r => by simp [tree, cloneT, clonePartsT, Expr.clone, relabel]
  | .column i => by simp [tree, cloneT, clonePartsT, Expr.clone, relabel]
  | .logical o es => by
    rw [tree, cloneT, cloneT_trees es, Expr.clone]
    cases Expr.cloneL es <;> simp [tree, relabel]
  | .cast t e => by
    rw [tree, cloneT, parts_cons, cloneT_tree e, Expr.clone]
    cases Expr.clone e <;> simp [clonePartsT, tree, relabel]
  | .call n es => by
    rw [tree, cloneT, clonePartsT, cloneT, cloneT_trees es, Expr.clone]
    cases h : Expr.cloneL es with
    | none => simp
    | some fs => simp [clonePartsT, tree, relabel, countT, trees_length]
  | .prop k r s p => by
    simp only [tree, cloneT, clonePartsT, Expr.clone, Option.map_some, relabel_prop]
  | .vertex => by simp [tree, cloneT, clonePartsT, Expr.clone, relabel]
  | .edge => by simp [tree, cloneT, clonePartsT, Expr.clone, relabel]
  | .uuid _ => by simp [tree, cloneT, clonePartsT, Expr.clone, relabel]
  | .var _ _ => by simp [tree, cloneT, clonePartsT, Expr.clone, relabel]
  | .versionedVar n none => by simp [tree, treeO, cloneT, clonePartsT, Expr.clone, nullable]
  | .versionedVar n (some e) => by
    rw [tree, treeO, cloneT, parts_cons, cloneT_tree e, Expr.clone]
    cases Expr.clone e <;> simp [clonePartsT, tree, treeO, relabel]
  | .coll k es => by
    rw [tree, cloneT, cloneT_trees es, Expr.clone]
    cases Expr.cloneL es <;> simp [tree, relabel]
  | .map kvs => by
    rw [tree, cloneT, cloneT_kvs kvs, Expr.clone]
    cases h : Expr.cloneKvs kvs with
    | none => simp
    | some l => simp [tree, relabel, cloneKvs_keys h]
  | .label n => by simp [tree, cloneT, clonePartsT, Expr.clone, relabel]
  | .case g c d cs => by
    rw [tree, cloneT, parts_opt (by rfl) c _ (cloneT_treeO c), parts_opt (by rfl) d _ (cloneT_treeO d), cloneT_cases cs, Expr.clone]
    cases Expr.cloneCases cs <;> cases Expr.cloneO c <;> cases Expr.cloneO d <;> simp [tree, relabel]
  | .predicate n i c f o => by
    rw [tree, cloneT, parts_cons, parts_opt (by rfl) f _ (cloneT_treeO f), cloneT_tree c, Expr.clone]
    cases Expr.clone c <;> cases Expr.cloneO f <;> simp [clonePartsT, tree, relabel]
  | .listComp i c f m o => by
    rw [tree, cloneT, parts_cons, parts_opt (by rfl) f _ (cloneT_treeO f), parts_opt (by rfl) m _ (cloneT_treeO m), cloneT_tree c, Expr.clone]
    cases Expr.clone c <;> cases Expr.cloneO f <;> cases Expr.cloneO m <;> simp [clonePartsT, tree, relabel]
  | .reduce a i v c m o => by
    rw [tree, cloneT, parts_cons, parts_cons, parts_cons, cloneT_tree i, cloneT_tree c, cloneT_tree m, Expr.clone]
    cases Expr.clone i <;> cases Expr.clone c <;> cases Expr.clone m <;> simp [clonePartsT, tree, relabel]
  | .text k a => by simp [tree, cloneT, clonePartsT, Expr.clone, relabel]
  | .aggregate n d none => by simp [tree, treeO, cloneT, clonePartsT, Expr.clone, nullable]
  | .aggregate n d (some e) => by
    rw [tree, treeO, cloneT, parts_cons, cloneT_tree e, Expr.clone]
    cases Expr.clone e <;> simp [clonePartsT, tree, treeO, relabel]
  | .range l lo hi => by
    rw [tree, cloneT, parts_cons, parts_opt (by rfl) lo _ (cloneT_treeO lo), parts_opt (by rfl) hi _ (cloneT_treeO hi), cloneT_tree l, Expr.clone]
    cases Expr.clone l <;> cases Expr.cloneO lo <;> cases Expr.cloneO hi <;> simp [clonePartsT, tree, relabel]
theorem cloneT_trees : ∀ (es : List Expr) {l : Label} {i : Nat}, clonePartsT l i (trees es) = (Expr.cloneL es).map trees
  | [], _, _ => by simp [trees, clonePartsT, Expr.cloneL]
  | e :: es, _, _ => by
    rw [trees, parts_cons, cloneT_tree e, cloneT_trees es, Expr.cloneL]
    cases Expr.clone e <;> cases Expr.cloneL es <;> simp [trees]
theorem cloneT_kvs : ∀ (es : List (Bytes × Expr)) {l : Label} {i : Nat}, clonePartsT l i (treesKvs es) = (Expr.cloneKvs es).map treesKvs
  | [], _, _ => by simp [treesKvs, clonePartsT, Expr.cloneKvs]
  | (k, e) :: es, _, _ => by
    rw [treesKvs, parts_cons, cloneT_tree e, cloneT_kvs es, Expr.cloneKvs]
    cases Expr.clone e <;> cases Expr.cloneKvs es <;> simp [treesKvs]
theorem cloneT_cases : ∀ (es : List (Expr × Expr)) {l : Label} {i : Nat}, clonePartsT l i (treesCases es) = (Expr.cloneCases es).map treesCases
  | [], _, _ => by simp [treesCases, clonePartsT, Expr.cloneCases]
  | (w, t) :: es, _, _ => by
    rw [treesCases, parts_cons, parts_cons, cloneT_tree w, cloneT_tree t, cloneT_cases es, Expr.cloneCases]
    cases Expr.clone w <;> cases Expr.clone t <;> cases Expr.cloneCases es <;> simp [treesCases]
theorem cloneT_treeO : ∀ (e : Option Expr) (x : Expr), e = some x → cloneT (tree x) = (Expr.clone x).map tree
  | none, _, h => by cases h
  | some e, x, h => by cases h; exact cloneT_tree e
end

/-! ## C145 -/

theorem Holds.lt {h : Heap} {S : Nat → Prop} {a : Nat} {e : Expr} (hs : Sound h) (he : Holds h S a e) : a < h.next := by
  obtain ⟨l, ts, ht⟩ := tree_node e
  unfold Holds at he
  rw [ht] at he
  obtain ⟨o, _, ho, _⟩ := he.inv
  by_cases hc : a < h.next
  · exact hc
  · rw [hs.unused a (by omega)] at ho; cases ho

theorem clone_eq {h : Heap} {S : Nat → Prop} {a : Nat} {e : Expr} (he : Holds h S a e) : ∃ o, h.obj a = some o ∧ clone h a = copy h o.pool a := by
  obtain ⟨l, ts, ht⟩ := tree_node e
  unfold Holds at he
  rw [ht] at he
  obtain ⟨o, _, ho, _⟩ := he.inv
  exact ⟨o, ho, by rw [clone, ho]; rfl⟩

/-- Two expressions at the same place are the same tree. -/
theorem clone_spec {h h' : Heap} {S : Nat → Prop} {a b : Nat} {e e' : Expr} (hs : Sound h) (he : Holds h S a e) (hc : Expr.clone e = some e')
    (h1 : clone h a = some (h', b)) : Sound h' ∧ (∀ x, x < h.next → h'.obj x = h.obj x) ∧ Holds h' (fun x => h.next ≤ x ∧ x < h'.next) b e' ∧
      h'.next = h.next + (tree e').size ∧ ∀ q, Holds h (h.InPool q) a e → ∀ x, h.next ≤ x → x < h'.next → h'.InPool q x := by
  obtain ⟨o, ho, hcl⟩ := clone_eq he
  rw [hcl] at h1
  obtain ⟨s1, s2, _, t, t', s4, s5, s6, s7, s8⟩ := copy_spec.1 _ _ _ _ h1 hs (he.lt hs)
  have ht : t = tree e := s4.unique he
  subst ht
  rw [cloneT_tree, hc] at s5
  cases s5
  refine ⟨s1, s2, s6, s7, ?_⟩
  intro q hq
  obtain ⟨l, ts, ht⟩ := tree_node e
  have hq' := hq
  unfold Holds at hq'
  rw [ht] at hq'
  obtain ⟨o', ⟨o'', a1, a2⟩, a3, _⟩ := hq'.inv
  rw [ho] at a1; cases a1
  subst a2
  exact s8 hq

/-- **C145 (copies).** The copy of an expression is made of new objects only; it is the expression Expr/Compare says (C95), and no object that was there is changed. -/
theorem C145_copy {h : Heap} {S : Nat → Prop} {a : Nat} {e e' : Expr} (hs : Sound h) (he : Holds h S a e) (hc : Expr.clone e = some e') :
    ∃ h' b, clone h a = some (h', b) ∧ Sound h' ∧ (∀ x, x < h.next → h'.obj x = h.obj x) ∧ Holds h' (fun x => h.next ≤ x ∧ x < h'.next) b e' := by
  obtain ⟨o, ho, hcl⟩ := clone_eq he
  obtain ⟨⟨h', b⟩, hr⟩ := copy_total.1 (tree e) (tree e') (by rw [cloneT_tree, hc]; rfl) h S o.pool a hs he
  obtain ⟨s1, s2, s3, _⟩ := clone_spec hs he hc (hcl.trans hr)
  exact ⟨h', b, hcl.trans hr, s1, s2, s3⟩

/-- **C145.** Copying returns exactly if the copying of Expr/Compare does: it fails only at a null pointer where the class does not expect one (C95). -/
theorem C145_returns {h : Heap} {S : Nat → Prop} {a : Nat} {e : Expr} (hs : Sound h) (he : Holds h S a e) : clone h a = none ↔ Expr.clone e = none := by
  constructor
  · intro hn
    cases hc : Expr.clone e with
    | none => rfl
    | some e' =>
      obtain ⟨h', b, h1, _⟩ := C145_copy hs he hc
      rw [hn] at h1; cases h1
  · intro hn
    cases h1 : clone h a with
    | none => rfl
    | some r =>
      obtain ⟨o, ho, hcl⟩ := clone_eq he
      rw [hcl] at h1
      obtain ⟨_, _, _, t, t', s4, s5, _⟩ := copy_spec.1 _ _ _ _ h1 hs (he.lt hs)
      have ht : t = tree e := s4.unique he
      subst ht
      rw [cloneT_tree, hn] at s5
      cases s5

theorem Edits.next {S : Nat → Prop} {h h' : Heap} (h1 : Edits S h h') : h.next ≤ h'.next := by
  induction h1 with
  | refl => exact Nat.le_refl _
  | add _ _ ih => simp only [Heap.add]; omega
  | set _ _ _ _ ih => exact ih

theorem Edits.same {S : Nat → Prop} {h h' : Heap} (h1 : Edits S h h') : ∀ x, ¬S x → x < h.next → h'.obj x = h.obj x := by
  intro x hx hlt
  induction h1 with
  | refl => rfl
  | add o h1 ih => have := h1.next; simp only [Heap.add]; rw [if_neg (by omega), ih]
  | set a o ha _ ih => simp only [Heap.set]; rw [if_neg (by rintro rfl; exact hx ha), ih]

/-- **C145 (independence of the copy).** Whatever is done later with any objects but those of the copy, the copy stays the same expression. -/
theorem C145_independent {h h' h'' : Heap} {S : Nat → Prop} {a b : Nat} {e e' : Expr} (hs : Sound h) (he : Holds h S a e) (hc : Expr.clone e = some e')
    (h1 : clone h a = some (h', b)) (h2 : Edits (fun x => ¬(h.next ≤ x ∧ x < h'.next)) h' h'') : Holds h'' (fun x => h.next ≤ x ∧ x < h'.next) b e' := by
  obtain ⟨_, _, s3, _⟩ := clone_spec hs he hc h1
  exact s3.agree (fun x hx => h2.same x (fun hn => hn hx) hx.2) (fun _ hx => hx)

/-- **C145 (independence of the original).** Whatever is done later with the objects of the copy and others made later, every expression that was there before stays
the same, the original among them. -/
theorem C145_original {h h' h'' : Heap} {S T : Nat → Prop} {a b p : Nat} {e e' f : Expr} (hs : Sound h) (he : Holds h S a e) (hc : Expr.clone e = some e')
    (h1 : clone h a = some (h', b)) (h2 : Edits (fun x => h.next ≤ x) h' h'') (hf : Holds h T p f) : Holds h'' T p f := by
  obtain ⟨_, s2, _, s4, _⟩ := clone_spec hs he hc h1
  have hw := Shows.within (h := h) (h' := h) hs (fun _ _ => rfl) hf (by intro x hx; cases hx; exact hf.lt hs)
  refine hw.agree (fun x hx => ?_) (fun _ hx => hx.1)
  rw [h2.same x (by have := hx.2; omega) (by have := hx.2; omega), s2 x hx.2]

/-- **C145 (setters).** A setter changes only the expressions that the object it is called on is part of. -/
theorem C145_frame {h : Heap} {S : Nat → Prop} {a x i : Nat} {p : Option Nat} {e : Expr} (he : Holds h S a e) (hx : ¬S x) :
    Holds (h.setPart x i p) S a e ∧ Holds (h.addPart x p) S a e := by
  have key : ∀ o, Holds (h.set x o) S a e := fun o => he.agree (fun y hy => by
    simp only [Heap.set]; rw [if_neg (by rintro rfl; exact hx hy)]) (fun _ hy => hy)
  constructor
  · unfold Heap.setPart
    split
    · exact key _
    · exact he
  · unfold Heap.addPart
    split
    · exact key _
    · exact he

theorem ShowsL.set {h : Heap} {S : Nat → Prop} {p : Option Nat} {t : Tree} (hp : Shows h S p t) :
    ∀ {ps ts} (i : Nat), ShowsL h S ps ts → ShowsL h S (ps.set i p) (ts.set i t)
  | _, _, _, .nil => .nil
  | _, _, 0, .cons _ b => .cons hp b
  | _, _, i + 1, .cons a b => .cons a (ShowsL.set hp i b)

theorem ShowsL.append {h : Heap} {S : Nat → Prop} {p : Option Nat} {t : Tree} (hp : Shows h S p t) :
    ∀ {ps ts}, ShowsL h S ps ts → ShowsL h S (ps ++ [p]) (ts ++ [t])
  | _, _, .nil => .cons hp .nil
  | _, _, .cons a b => .cons a (ShowsL.append hp b)

/-- **C145 (setters).** After a setter the object has the given part in that place, and everything else as before; after an addition it has one more part. (The parts
must not contain the object itself, see `C145_cycle_violated`.) -/
theorem C145_setter {h : Heap} {S : Nat → Prop} {x : Nat} {o : Object} {ts : List Tree} {p : Option Nat} {t : Tree} (ho : h.obj x = some o) (hx : ¬S x)
    (hp : ShowsL h S o.parts ts) (ht : Shows h S p t) :
    (∀ i, Shows (h.setPart x i p) (fun a => S a ∨ a = x) (some x) (.node o.label (ts.set i t))) ∧
    Shows (h.addPart x p) (fun a => S a ∨ a = x) (some x) (.node o.label (ts ++ [t])) := by
  have key : ∀ (ps : List (Option Nat)) (us : List Tree), ShowsL h S ps us →
      Shows (h.set x { o with parts := ps }) (fun a => S a ∨ a = x) (some x) (.node o.label us) := fun ps us hu =>
    .node (o := { o with parts := ps }) (Or.inr rfl) (by simp [Heap.set]) (hu.agree (fun y hy => by
      simp only [Heap.set]; rw [if_neg (by rintro rfl; exact hx hy)]) (fun _ hy => Or.inl hy))
  constructor
  · intro i
    simp only [Heap.setPart, ho]
    exact key _ _ (hp.set ht i)
  · simp only [Heap.addPart, ho]
    exact key _ _ (hp.append ht)

mutual
theorem Changed.shows {h h' : Heap} {x : Nat} {t : Tree} (e : ∀ a, a ≠ x → h'.obj a = h.obj a) (ht : Shows h' (fun _ => True) (some x) t) :
    ∀ {p u}, Changed h x t p u → Shows h' (fun _ => True) p u
  | _, _, .null => .null
  | _, _, .here => ht
  | _, _, .node hn ho hp => .node trivial ((e _ hn).trans ho) (ChangedL.shows e ht hp)
theorem ChangedL.shows {h h' : Heap} {x : Nat} {t : Tree} (e : ∀ a, a ≠ x → h'.obj a = h.obj a) (ht : Shows h' (fun _ => True) (some x) t) :
    ∀ {p u}, ChangedL h x t p u → ShowsL h' (fun _ => True) p u
  | _, _, .nil => .nil
  | _, _, .cons a b => .cons (Changed.shows e ht a) (ChangedL.shows e ht b)
end

mutual
theorem Shows.changed {h h' : Heap} {x : Nat} {t : Tree} (e : ∀ a, a ≠ x → h'.obj a = h.obj a) (ht : Shows h' (fun _ => True) (some x) t) :
    ∀ {p u}, Shows h' (fun _ => True) p u → Changed h x t p u
  | _, _, .null => .null
  | _, _, .node (a := a) hs ho hp => by
    by_cases hax : a = x
    · subst hax
      rw [Shows.unique (.node hs ho hp) ht]
      exact .here
    · exact .node hax ((e a hax).symm.trans ho) (ShowsL.changed e ht hp)
theorem ShowsL.changed {h h' : Heap} {x : Nat} {t : Tree} (e : ∀ a, a ≠ x → h'.obj a = h.obj a) (ht : Shows h' (fun _ => True) (some x) t) :
    ∀ {p u}, ShowsL h' (fun _ => True) p u → ChangedL h x t p u
  | _, _, .nil => .nil
  | _, _, .cons a b => .cons (Shows.changed e ht a) (ShowsL.changed e ht b)
end

/-- **C145 (setters).** Every expression there is changes wherever the object is used, and nowhere else: `t` is what `C145_setter` says is seen at the object. -/
theorem C145_everywhere {h : Heap} {x i : Nat} {q : Option Nat} {t : Tree} :
    (Shows (h.setPart x i q) (fun _ => True) (some x) t → ∀ p u, Shows (h.setPart x i q) (fun _ => True) p u ↔ Changed h x t p u) ∧
    (Shows (h.addPart x q) (fun _ => True) (some x) t → ∀ p u, Shows (h.addPart x q) (fun _ => True) p u ↔ Changed h x t p u) := by
  have e1 : ∀ a, a ≠ x → (h.setPart x i q).obj a = h.obj a := by
    intro a ha; unfold Heap.setPart; split
    · simp [Heap.set, ha]
    · rfl
  have e2 : ∀ a, a ≠ x → (h.addPart x q).obj a = h.obj a := by
    intro a ha; unfold Heap.addPart; split
    · simp [Heap.set, ha]
    · rfl
  exact ⟨fun ht p u => ⟨Shows.changed e1 ht, Changed.shows e1 ht⟩, fun ht p u => ⟨Shows.changed e2 ht, Changed.shows e2 ht⟩⟩

/-- The hypotheses are met: the operand of `-(1)` is set to `2`. -/
example : ∃ (h : Heap) (o : Object), h.obj 1 = some o ∧ ShowsL h (fun a => a = 0 ∨ a = 2) o.parts [tree (.const (.int 1))] ∧
    Shows h (fun a => a = 0 ∨ a = 2) (some 2) (tree (.const (.int 2))) ∧ Holds (h.setPart 1 0 (some 2)) (fun a => (a = 0 ∨ a = 2) ∨ a = 1) 1 (.unary .negate (.const (.int 2))) := by
  let h : Heap := ⟨3, fun a => if a = 0 then some ⟨.const (.int 1), [], 0⟩ else if a = 1 then some ⟨.unary .negate, [some 0], 0⟩ else
    if a = 2 then some ⟨.const (.int 2), [], 0⟩ else none⟩
  have h0 : ShowsL h (fun a => a = 0 ∨ a = 2) [some 0] [tree (.const (.int 1))] := .cons (.node (o := ⟨.const (.int 1), [], 0⟩) (Or.inl rfl) rfl .nil) .nil
  have h2 : Shows h (fun a => a = 0 ∨ a = 2) (some 2) (tree (.const (.int 2))) := .node (o := ⟨.const (.int 2), [], 0⟩) (Or.inr rfl) rfl .nil
  exact ⟨h, ⟨.unary .negate, [some 0], 0⟩, rfl, h0, h2, (C145_setter (o := ⟨.unary .negate, [some 0], 0⟩) rfl (by simp) h0 h2).1 0⟩

/-- A heap with the objects of a list. -/
def Heap.of (l : List Object) : Heap := ⟨l.length, fun a => l[a]?⟩

theorem sound_of (l : List Object) (hl : ∀ o ∈ l, ∀ b, some b ∈ o.parts → b < l.length) : Sound (Heap.of l) := by
  refine ⟨?_, ?_⟩
  · intro a ha; exact List.getElem?_eq_none ha
  · intro a o ho b hb; exact hl o (List.mem_of_getElem? ho) b hb

/-- The hypotheses are met: `-(1) + 1`, with one object for both constants. -/
example : ∃ h : Heap, Sound h ∧ h.next = 3 ∧ Holds h (· < 3) 2 (.binary .add (.unary .negate (.const (.int 1))) (.const (.int 1))) := by
  refine ⟨.of [⟨.const (.int 1), [], 0⟩, ⟨.unary .negate, [some 0], 0⟩, ⟨.binary .add, [some 1, some 0], 0⟩], sound_of _ ?_, rfl, ?_⟩
  · intro o ho b hb
    simp only [List.mem_cons, List.not_mem_nil, or_false] at ho
    rcases ho with rfl | rfl | rfl <;> simp at hb ⊢ <;> omega
  · have h0 : ∀ {h : Heap} {S : Nat → Prop}, S 0 → h.obj 0 = some ⟨.const (.int 1), [], 0⟩ → Shows h S (some 0) (.node (.const (.int 1)) []) := fun hs ho => .node hs ho .nil
    unfold Holds
    simp only [tree]
    refine .node (o := ⟨.binary .add, [some 1, some 0], 0⟩) (by omega) rfl (.cons ?_ (.cons (h0 (by omega) rfl) .nil))
    exact .node (o := ⟨.unary .negate, [some 0], 0⟩) (by omega) rfl (.cons (h0 (by omega) rfl) .nil)

/-- **C145 violated without copying:** setting the operand of one expression changes another one, if an object was used in both. -/
theorem C145_shared_violated : ∃ (h : Heap) (e f e' f' : Expr), Sound h ∧ Holds h (· < h.next) 2 e ∧ Holds h (· < h.next) 3 f ∧
    Holds (h.setPart 1 0 (some 4)) (· < h.next) 2 e' ∧ Holds (h.setPart 1 0 (some 4)) (· < h.next) 3 f' ∧
    e = .unary .negate (.unary .plus (.const (.int 1))) ∧ e' = .unary .negate (.unary .plus (.const (.int 2))) ∧
    f = .unary .not (.unary .plus (.const (.int 1))) ∧ f' = .unary .not (.unary .plus (.const (.int 2))) := by
  refine ⟨.of [⟨.const (.int 1), [], 0⟩, ⟨.unary .plus, [some 0], 0⟩, ⟨.unary .negate, [some 1], 0⟩, ⟨.unary .not, [some 1], 0⟩, ⟨.const (.int 2), [], 0⟩],
    _, _, _, _, sound_of _ ?_, ?_, ?_, ?_, ?_, rfl, rfl, rfl, rfl⟩
  · intro o ho b hb
    simp only [List.mem_cons, List.not_mem_nil, or_false] at ho
    rcases ho with rfl | rfl | rfl | rfl | rfl <;> simp at hb ⊢ <;> omega
  · exact .node (o := ⟨.unary .negate, [some 1], 0⟩) (by decide) rfl (.cons (.node (o := ⟨.unary .plus, [some 0], 0⟩) (by decide) rfl
      (.cons (.node (o := ⟨.const (.int 1), [], 0⟩) (by decide) rfl .nil) .nil)) .nil)
  · exact .node (o := ⟨.unary .not, [some 1], 0⟩) (by decide) rfl (.cons (.node (o := ⟨.unary .plus, [some 0], 0⟩) (by decide) rfl
      (.cons (.node (o := ⟨.const (.int 1), [], 0⟩) (by decide) rfl .nil) .nil)) .nil)
  · exact .node (o := ⟨.unary .negate, [some 1], 0⟩) (by decide) rfl (.cons (.node (o := ⟨.unary .plus, [some 4], 0⟩) (by decide) rfl
      (.cons (.node (o := ⟨.const (.int 2), [], 0⟩) (by decide) rfl .nil) .nil)) .nil)
  · exact .node (o := ⟨.unary .not, [some 1], 0⟩) (by decide) rfl (.cons (.node (o := ⟨.unary .plus, [some 4], 0⟩) (by decide) rfl
      (.cons (.node (o := ⟨.const (.int 2), [], 0⟩) (by decide) rfl .nil) .nil)) .nil)

/-- **C145 (size).** The copy takes as many objects as the expression written out has. -/
theorem C145_size {h h' : Heap} {S : Nat → Prop} {a b : Nat} {e e' : Expr} (hs : Sound h) (he : Holds h S a e) (hc : Expr.clone e = some e')
    (h1 : clone h a = some (h', b)) : h'.next = h.next + (tree e').size := (clone_spec hs he hc h1).2.2.2.1

/-- `x + x`, of that again, … -/
def tower : Nat → Expr
  | 0 => .const (.int 1)
  | n + 1 => .binary .add (tower n) (tower n)

/-- The objects of `tower`: each is used twice. -/
def towerHeap (n : Nat) : Heap := ⟨n + 1, fun a => if a = 0 then some ⟨.const (.int 1), [], 0⟩ else if a ≤ n then some ⟨.binary .add, [some (a - 1), some (a - 1)], 0⟩ else none⟩

/-- **C145 violated (size):** the copy of an expression of `n + 1` objects takes `2 ^ (n + 1) - 1` objects, if the objects are used twice. -/
theorem C145_size_violated (n : Nat) : Sound (towerHeap n) ∧ (towerHeap n).next = n + 1 ∧ Holds (towerHeap n) (· ≤ n) n (tower n) ∧
    ∃ h' b, clone (towerHeap n) n = some (h', b) ∧ h'.next + 1 = n + 1 + 2 ^ (n + 1) := by
  have hs : Sound (towerHeap n) := by
    refine ⟨?_, ?_⟩
    · intro a ha
      simp only [towerHeap] at ha ⊢
      rw [if_neg (by omega), if_neg (by omega)]
    · intro a o ho b hb
      simp only [towerHeap] at ho ⊢
      split at ho
      · cases ho; cases hb
      · split at ho
        · cases ho; simp at hb; omega
        · cases ho
  have hh : ∀ k, k ≤ n → Holds (towerHeap n) (· ≤ n) k (tower k) := by
    intro k
    induction k with
    | zero => intro _; exact .node (o := ⟨.const (.int 1), [], 0⟩) (Nat.zero_le _) rfl .nil
    | succ k ih =>
      intro hk
      have := ih (by omega)
      refine .node (o := ⟨.binary .add, [some k, some k], 0⟩) hk ?_ (.cons this (.cons this .nil))
      simp only [towerHeap]
      rw [if_neg (by omega), if_pos hk]
      rfl
  have hc : ∀ k, Expr.clone (tower k) = some (tower k) := by
    intro k
    induction k with
    | zero => rfl
    | succ k ih => simp [tower, Expr.clone, ih]
  have hz : ∀ k, (tree (tower k)).size + 1 = 2 ^ (k + 1) := by
    intro k
    induction k with
    | zero => rfl
    | succ k ih => simp only [tower, tree, Tree.size, Tree.size.sizes]; rw [Nat.pow_succ]; omega
  obtain ⟨h', b, h1, _⟩ := C145_copy hs (hh n (Nat.le_refl _)) (hc n)
  refine ⟨hs, rfl, hh n (Nat.le_refl _), h', b, h1, ?_⟩
  have := C145_size hs (hh n (Nat.le_refl _)) (hc n) h1
  have hz := hz n
  have : h'.next = n + 1 + (tree (tower n)).size := this
  omega

/-- **C145 violated (cycles):** a setter accepts an operand the object is part of; from then on there is no expression there, and copying it does not return. -/
theorem C145_cycle_violated (o : UnOp) : ∃ h : Heap, Sound h ∧ Holds h (· < h.next) 1 (.unary o (.const (.int 1))) ∧
    (∀ S t, ¬Shows (h.setPart 1 0 (some 1)) S (some 1) t) ∧ clone (h.setPart 1 0 (some 1)) 1 = none := by
  have hno : ∀ S t, ¬Shows ((Heap.of [⟨.const (.int 1), [], 0⟩, ⟨.unary o, [some 0], 0⟩]).setPart 1 0 (some 1)) S (some 1) t := by
    intro S t hp
    have : ∀ n t, t.size ≤ n → ¬Shows ((Heap.of [⟨.const (.int 1), [], 0⟩, ⟨.unary o, [some 0], 0⟩]).setPart 1 0 (some 1)) S (some 1) t := by
      intro n
      induction n with
      | zero => intro t ht hp; cases hp with | node _ _ _ => simp [Tree.size] at ht
      | succ n ih =>
        intro t ht hp
        cases t with
        | nil => cases hp
        | node l ts =>
          obtain ⟨o', _, ho, _, hp⟩ := hp.inv
          have : o' = ⟨.unary o, [some 1], 0⟩ := (Option.some.inj ho).symm
          subst this
          cases hp with
          | cons p1 _ => exact ih _ (by simp only [Tree.size, Tree.size.sizes] at ht; omega) p1
    exact this t.size t (Nat.le_refl _) hp
  refine ⟨.of [⟨.const (.int 1), [], 0⟩, ⟨.unary o, [some 0], 0⟩], sound_of _ ?_, ?_, hno, ?_⟩
  · intro o ho b hb
    simp only [List.mem_cons, List.not_mem_nil, or_false] at ho
    rcases ho with rfl | rfl <;> simp at hb ⊢ <;> omega
  · exact .node (o := ⟨.unary o, [some 0], 0⟩) (by simp [Heap.of]) rfl (.cons (.node (o := ⟨.const (.int 1), [], 0⟩) (by simp [Heap.of]) rfl .nil) .nil)
  · cases hc : clone ((Heap.of [⟨.const (.int 1), [], 0⟩, ⟨.unary o, [some 0], 0⟩]).setPart 1 0 (some 1)) 1 with
    | none => rfl
    | some r =>
      have hc' : copy ((Heap.of [⟨.const (.int 1), [], 0⟩, ⟨.unary o, [some 0], 0⟩]).setPart 1 0 (some 1)) 0 1 = some r := hc
      have hs : Sound ((Heap.of [⟨.const (.int 1), [], 0⟩, ⟨.unary o, [some 0], 0⟩]).setPart 1 0 (some 1)) := by
        refine ⟨?_, ?_⟩
        · intro a ha
          have ha : 2 ≤ a := ha
          simp only [Heap.setPart, Heap.of, Heap.set, List.getElem?_cons_succ, List.getElem?_cons_zero]
          rw [if_neg (by omega), List.getElem?_eq_none (by simpa using ha)]
        · intro a o' ho b hb
          show b < 2
          simp only [Heap.setPart, Heap.of, Heap.set, List.getElem?_cons_succ, List.getElem?_cons_zero] at ho
          split at ho
          · cases ho; simp at hb; omega
          · have := List.mem_of_getElem? ho
            simp only [List.mem_cons, List.not_mem_nil, or_false] at this
            rcases this with rfl | rfl <;> simp at hb; omega
      obtain ⟨_, _, _, t, _, h4, _⟩ := copy_spec.1 _ _ _ _ hc' hs (by simp [Heap.of, Heap.setPart, Heap.addPart, Heap.set])
      exact absurd h4 (hno _ _)

/-- **C145 violated (functions):** an argument added to the list of a call does not change which function was found for it, but its copy looks again: original and copy
call the functions for different numbers of arguments. -/
theorem C145_function_violated (name : Bytes) : ∃ h : Heap, Holds h (· < h.next) 2 (.call name [.const (.int 1)]) ∧
    (∃ t, Shows (h.addPart 1 (some 0)) (· < h.next) (some 2) (.node (.call name 1) t)) ∧
    ∃ h' b t, clone (h.addPart 1 (some 0)) 2 = some (h', b) ∧ Shows h' (fun _ => True) (some b) (.node (.call name 2) t) := by
  have h0 : ∀ {h : Heap} {S : Nat → Prop}, S 0 → h.obj 0 = some ⟨.const (.int 1), [], 0⟩ → Shows h S (some 0) (.node (.const (.int 1)) []) := fun hs ho => .node hs ho .nil
  have hp : Shows ((Heap.of [⟨.const (.int 1), [], 0⟩, ⟨.args, [some 0], 0⟩, ⟨.call name 1, [some 1], 0⟩]).addPart 1 (some 0)) (· < 3) (some 2)
      (.node (.call name 1) [.node .args [.node (.const (.int 1)) [], .node (.const (.int 1)) []]]) :=
    .node (o := ⟨.call name 1, [some 1], 0⟩) (by simp [Heap.of]) rfl (.cons (.node (o := ⟨.args, [some 0, some 0], 0⟩) (by simp [Heap.of]) rfl
      (.cons (h0 (by simp [Heap.of]) rfl) (.cons (h0 (by simp [Heap.of]) rfl) .nil))) .nil)
  have hs : Sound ((Heap.of [⟨.const (.int 1), [], 0⟩, ⟨.args, [some 0], 0⟩, ⟨.call name 1, [some 1], 0⟩]).addPart 1 (some 0)) := by
    refine ⟨?_, ?_⟩
    · intro a ha
      have ha : 3 ≤ a := ha
      simp only [Heap.addPart, Heap.of, Heap.set, List.getElem?_cons_succ, List.getElem?_cons_zero]
      rw [if_neg (by omega), List.getElem?_eq_none (by simpa using ha)]
    · intro a o' ho b hb
      show b < 3
      simp only [Heap.addPart, Heap.of, Heap.set, List.getElem?_cons_succ, List.getElem?_cons_zero] at ho
      split at ho
      · cases ho; simp at hb; omega
      · have := List.mem_of_getElem? ho
        simp only [List.mem_cons, List.not_mem_nil, or_false] at this
        rcases this with rfl | rfl | rfl <;> simp at hb <;> omega
  have hct : cloneT (.node (.call name 1) [.node .args [.node (.const (.int 1)) [], .node (.const (.int 1)) []]]) =
      some (.node (.call name 2) [.node .args [.node (.const (.int 1)) [], .node (.const (.int 1)) []]]) := by
    simp [cloneT, clonePartsT, relabel, countT]
  refine ⟨.of [⟨.const (.int 1), [], 0⟩, ⟨.args, [some 0], 0⟩, ⟨.call name 1, [some 1], 0⟩], ?_, ⟨_, hp⟩, ?_⟩
  · exact .node (o := ⟨.call name 1, [some 1], 0⟩) (by simp [Heap.of]) rfl (.cons (.node (o := ⟨.args, [some 0], 0⟩) (by simp [Heap.of]) rfl
      (.cons (h0 (by simp [Heap.of]) rfl) .nil)) .nil)
  · obtain ⟨⟨h', b⟩, hr⟩ := copy_total.1 _ _ hct _ _ 0 2 hs hp
    obtain ⟨_, _, _, t, t', s4, s5, s6, _⟩ := copy_spec.1 _ _ _ _ hr hs (by simp [Heap.of, Heap.setPart, Heap.addPart, Heap.set])
    have := s4.unique hp
    subst this
    rw [hct] at s5
    cases s5
    exact ⟨h', b, _, hr, s6.agree (fun _ _ => rfl) (fun _ _ => trivial)⟩

/-- **C145 (pools).** The copy of an expression whose objects are in one pool is in that pool: it outlives every other pool, and is gone with that one. -/
theorem C145_pool {h h' : Heap} {a b q : Nat} {e e' : Expr} (hs : Sound h) (hq : Holds h (h.InPool q) a e) (hc : Expr.clone e = some e')
    (h1 : clone h a = some (h', b)) : Holds h' (h'.InPool q) b e' ∧ (∀ q', q' ≠ q → Holds (h'.clear q') (h'.InPool q) b e') ∧ ∀ T t, ¬Shows (h'.clear q) T (some b) t := by
  obtain ⟨_, _, s3, _, s5⟩ := clone_spec hs hq hc h1
  have hp : Holds h' (h'.InPool q) b e' := s3.agree (fun _ _ => rfl) (fun x hx => s5 q hq x hx.1 hx.2)
  refine ⟨hp, ?_, ?_⟩
  · intro q' hne
    refine hp.agree (fun x hx => ?_) (fun _ hx => hx)
    obtain ⟨o, ho, hpo⟩ := hx
    simp only [Heap.clear, ho, hpo]
    rw [if_neg (by omega)]
  · intro T t ht
    obtain ⟨l, ts, hl⟩ := tree_node e'
    unfold Holds at hp
    rw [hl] at hp
    obtain ⟨o, ⟨o', ho, hpo⟩, _⟩ := hp.inv
    cases ht with
    | node _ ho' _ => simp only [Heap.clear, ho, hpo, if_true] at ho'; cases ho'

end Objects
end Nebula
