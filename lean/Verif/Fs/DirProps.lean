import Verif.Fs.Dir
import Verif.Fs.PathProps
/-! # C77: making directories -/
namespace Nebula
namespace Fs
open Net

/-- A file system: the root is a directory, and every file is in a directory. -/
structure FS.Ok (fs : FS) : Prop where
  root : fs [] = some .dir
  closed : ∀ l x, fs (l ++ [x]) ≠ none → fs l = some .dir

/-- `fs'` has everything `fs` has, and some more directories, all in `S`. -/
structure Grown (S : List Bytes → Prop) (fs fs' : FS) : Prop where
  keep : ∀ l k, fs l = some k → fs' l = some k
  new : ∀ l, fs l = none → fs' l = none ∨ (fs' l = some .dir ∧ S l)

/-- Other processes do nothing but make directories, in `S`. -/
def OnlyMakes (S : List Bytes → Prop) (env : Nat → FS → FS) : Prop :=
  ∀ k fs, fs.Ok → (env k fs).Ok ∧ Grown S fs (env k fs)

/-- Nothing but directories on the way. -/
def WayFree (fs : FS) (l : List Bytes) : Prop := ∀ m, m <+: l → fs m = none ∨ fs m = some .dir

theorem Grown.refl {S} (fs : FS) : Grown S fs fs := ⟨fun _ _ h => h, fun _ h => Or.inl h⟩

theorem Grown.trans {S} {a b c : FS} (h1 : Grown S a b) (h2 : Grown S b c) : Grown S a c := by
  refine ⟨fun l k h => h2.keep l k (h1.keep l k h), fun l h => ?_⟩
  rcases h1.new l h with h | h
  · exact h2.new l h
  · exact Or.inr ⟨h2.keep l _ h.1, h.2⟩

theorem Grown.mono {S T : List Bytes → Prop} {a b : FS} (h : Grown S a b) (hst : ∀ l, S l → T l) : Grown T a b :=
  ⟨h.keep, fun l hl => (h.new l hl).imp id fun x => ⟨x.1, hst l x.2⟩⟩

theorem Grown.free {S} {a b : FS} (h : Grown S a b) {l : List Bytes} (hf : WayFree a l) : WayFree b l := by
  intro m hm
  rcases hf m hm with e | e
  · exact (h.new m e).imp id And.left
  · exact Or.inr (h.keep m _ e)

theorem FS.Ok.prefix_dir {fs : FS} (ho : fs.Ok) : ∀ (t l : List Bytes), fs (l ++ t) ≠ none → t ≠ [] → fs l = some .dir
  | [], _, _, h => absurd rfl h
  | [x], l, h, _ => ho.closed l x h
  | x :: y :: t, l, h, _ => by
    have : fs (l ++ [x]) = some .dir := ho.prefix_dir (y :: t) (l ++ [x]) (by rw [List.append_assoc]; exact h) (by simp)
    exact ho.closed l x (by rw [this]; simp)

theorem walk_dirs {fs : FS} : ∀ (l pre : List Bytes), (∀ m, m <+: l → fs (pre ++ m) = some .dir) → walk fs pre l = .directory
  | [], pre, h => by
    have := h [] (List.prefix_refl _)
    rw [List.append_nil] at this
    rw [walk, this]
  | c :: cs, pre, h => by
    have h0 := h [] (List.nil_prefix)
    rw [List.append_nil] at h0
    rw [walk, h0]
    refine walk_dirs cs _ fun m hm => ?_
    rw [List.append_assoc]
    exact h (c :: m) (List.cons_prefix_cons.2 ⟨rfl, hm⟩)

theorem fileType_dir {fs : FS} (ho : fs.Ok) {l : List Bytes} (h : fs l = some .dir) : fileType fs l = .directory := by
  unfold fileType
  refine walk_dirs l [] fun m hm => ?_
  obtain ⟨t, rfl⟩ := hm
  rw [List.nil_append]
  cases t with
  | nil => simpa using h
  | cons x t => exact ho.prefix_dir (x :: t) m (by rw [h]; simp) (by simp)

theorem walk_free {fs : FS} : ∀ (l pre : List Bytes), (∀ m, m <+: l → fs (pre ++ m) = none ∨ fs (pre ++ m) = some .dir) →
    walk fs pre l = .notExist ∨ (walk fs pre l = .directory ∧ fs (pre ++ l) = some .dir)
  | [], pre, h => by
    have := h [] (List.prefix_refl _)
    rw [List.append_nil] at this
    rw [walk, List.append_nil]
    rcases this with e | e <;> rw [e] <;> simp
  | c :: cs, pre, h => by
    have h0 := h [] (List.nil_prefix)
    rw [List.append_nil] at h0
    rw [walk]
    rcases h0 with e | e
    · rw [e]; simp
    · rw [e]
      dsimp only
      have := walk_free cs (pre ++ [c]) fun m hm => by
        rw [List.append_assoc]; exact h (c :: m) (List.cons_prefix_cons.2 ⟨rfl, hm⟩)
      rw [List.append_assoc] at this
      exact this

theorem fileType_free {fs : FS} {l : List Bytes} (hf : WayFree fs l) :
    fileType fs l = .notExist ∨ (fileType fs l = .directory ∧ fs l = some .dir) := by
  have := walk_free (fs := fs) l [] fun m hm => by rw [List.nil_append]; exact hf m hm
  rwa [List.nil_append] at this

theorem fileType_notExist {fs : FS} (ho : fs.Ok) {l : List Bytes} (hf : WayFree fs l) (h : fileType fs l = .notExist) : fs l = none := by
  rcases hf l (List.prefix_refl l) with e | e
  · exact e
  · rw [fileType_dir ho e] at h; cases h

/-- The last step: with the parent there (or the file itself), the directory is made. -/
theorem makeLast_ok {S : List Bytes → Prop} {env : Nat → FS → FS} (he : OnlyMakes S env) {l : List Bytes} {r : Made} (ho : r.fs.Ok)
    (hf : WayFree r.fs l) (hp : r.fs l.dropLast = some .dir) (hS : S l) :
    (makeLast env l r).ok = true ∧ (makeLast env l r).fs.Ok ∧ (makeLast env l r).fs l = some .dir ∧ Grown S r.fs (makeLast env l r).fs := by
  obtain ⟨ho1, hg1⟩ := he r.calls r.fs ho
  have hf1 := hg1.free hf
  have hp1 := hg1.keep _ _ hp
  unfold makeLast
  dsimp only
  rcases fileType_free hf1 with hn | ⟨hd, hd2⟩
  · have hm : mkdir (env r.calls r.fs) l = some fun m => if m = l then some .dir else env r.calls r.fs m := by
      unfold mkdir; rw [if_pos ⟨hn, fileType_dir ho1 hp1⟩]
    rw [hm]
    dsimp only
    have hnone := fileType_notExist ho1 hf1 hn
    have hlne : l ≠ [] := by
      rintro rfl
      rw [ho1.root] at hnone; cases hnone
    refine ⟨rfl, ⟨?_, ?_⟩, by simp, ?_⟩
    · rw [if_neg (fun e => hlne e.symm)]; exact ho1.root
    · intro m x hx
      by_cases e : m = l
      · simp [e]
      · rw [if_neg e]
        by_cases e2 : m ++ [x] = l
        · have : m = l.dropLast := by rw [← e2]; simp
          rw [this]; exact hp1
        · rw [if_neg e2] at hx; exact ho1.closed m x hx
    · refine hg1.trans ⟨fun m k hk => ?_, fun m hm => ?_⟩
      · rw [if_neg]
        · exact hk
        · rintro rfl; rw [hnone] at hk; cases hk
      · by_cases e : m = l
        · right; rw [if_pos e]; exact ⟨rfl, by rw [e]; exact hS⟩
        · left; rw [if_neg e]; exact hm
  · have hm : mkdir (env r.calls r.fs) l = none := by
      unfold mkdir; rw [if_neg]; rintro ⟨e, _⟩; rw [hd] at e; cases e
    rw [hm]
    dsimp only
    obtain ⟨ho2, hg2⟩ := he (r.calls + 1) _ ho1
    have hd3 := hg2.keep _ _ hd2
    exact ⟨by rw [fileType_dir ho2 hd3]; rfl, ho2, hd3, hg1.trans hg2⟩

theorem resolve_same {cwd : List Bytes} {p q : Bytes} (h : SamePath p q) : resolve cwd p = resolve cwd q := by
  unfold resolve; rw [h.1, h.2]

/-- The file a path denotes is the child in its parent. -/
theorem resolve_divide (cwd : List Bytes) {p : Bytes} (hn : NoNul p) (h1 : p ≠ [47]) (h : p ≠ []) :
    ((dividePath p).1 = [] → resolve cwd p = cwd ++ comps (dividePath p).2) ∧
    ((dividePath p).1 ≠ [] → resolve cwd p = resolve cwd (dividePath p).1 ++ comps (dividePath p).2) ∧
    (comps (dividePath p).2).length ≤ 1 ∧ NoNul (dividePath p).1 := by
  have hnn : NoNul (dividePath p).1 ∧ NoNul (dividePath p).2 := by
    rcases divide_cases h h1 with ⟨e, _⟩ | ⟨a, b, e, _, hd⟩
    · rw [e]; exact ⟨by simp [NoNul], noNul_toLook hn⟩
    · rw [hd]
      have hnl := noNul_toLook hn
      rw [e] at hnl
      refine ⟨?_, fun hm => hnl (List.mem_append_right _ (List.mem_cons_of_mem _ hm))⟩
      dsimp only
      split
      · simp [NoNul]
      · exact fun hm => hnl (List.mem_append_left _ hm)
  obtain ⟨j1, j2, _⟩ := C63_join hnn.1 hnn.2
  have hj := resolve_same (cwd := cwd) (C63_divide_join hn h1)
  refine ⟨?_, ?_, ?_, hnn.1⟩
  · intro hp
    rw [← hj]
    unfold resolve
    rw [j1, j2, hp, comps_nil]; rfl
  · intro hp
    rw [← hj]
    unfold resolve
    rw [j1, j2]
    split
    · rfl
    · rw [List.append_assoc]
  · have hs := (C63_divide_parts h h1).1
    unfold comps
    rw [splitAll_single _ _ hs]
    exact List.length_filter_le _ _

theorem dropLast_cases (l t : List Bytes) (h : t.length ≤ 1) : (l ++ t) = l ∨ (l ++ t).dropLast = l := by
  cases t with
  | nil => left; simp
  | cons x t =>
    cases t with
    | nil => right; simp
    | cons y t => simp at h

theorem makeDirF_ok {S : List Bytes → Prop} {env : Nat → FS → FS} (he : OnlyMakes S env) {cwd : List Bytes} :
    ∀ (f : Nat) (p : Bytes) (fs : FS) (k : Nat), p.length < f → p ≠ [] → NoNul p → fs.Ok → fs cwd = some .dir →
      WayFree fs (resolve cwd p) → (∀ m, m <+: resolve cwd p → S m) →
      (makeDirF env cwd f fs k p).ok = true ∧ (makeDirF env cwd f fs k p).fs.Ok ∧
      (makeDirF env cwd f fs k p).fs (resolve cwd p) = some .dir ∧ Grown S fs (makeDirF env cwd f fs k p).fs
  | 0, p, _, _, hlt, _, _, _, _, _, _ => absurd hlt (Nat.not_lt_zero _)
  | f + 1, p, fs, k, hlt, hne, hn, ho, hcwd, hfree, hS => by
    obtain ⟨ho1, hg1⟩ := he k fs ho
    have hf1 := hg1.free hfree
    have hc1 := hg1.keep _ _ hcwd
    rw [makeDirF, if_neg hne]
    dsimp only
    rcases fileType_free hf1 with hx | ⟨hx, hd⟩
    · rw [hx]
      dsimp only
      by_cases h1 : p = [47]
      · exfalso
        subst h1
        have : resolve cwd [47] = [] := rfl
        rw [this] at hx
        rw [fileType_dir ho1 ho1.root] at hx; cases hx
      obtain ⟨d1, d2, d3, d4⟩ := resolve_divide cwd hn h1 hne
      split
      · rename_i hpar
        have hl := d1 hpar
        rcases dropLast_cases cwd _ d3 with e | e
        · exfalso
          rw [hl, e, fileType_dir ho1 hc1] at hx; cases hx
        · rw [if_pos rfl]
          obtain ⟨a1, a2, a3, a4⟩ := makeLast_ok he (l := resolve cwd p) (r := ⟨true, env k fs, k + 1⟩) ho1 hf1
            (by rw [hl, e]; exact hc1) (hS _ (List.prefix_refl _))
          exact ⟨a1, a2, a3, hg1.trans a4⟩
      · rename_i hpar
        have hl := d2 hpar
        have hlen := (C63_divide_parts hne h1).2
        have hpre : resolve cwd (dividePath p).1 <+: resolve cwd p := ⟨_, hl.symm⟩
        obtain ⟨b1, b2, b3, b4⟩ := makeDirF_ok he f (dividePath p).1 (env k fs) (k + 1) (by omega) hpar d4 ho1 hc1
          (fun m hm => hf1 m (hm.trans hpre)) (fun m hm => hS m (hm.trans hpre))
        rw [if_pos b1]
        rcases dropLast_cases (resolve cwd (dividePath p).1) _ d3 with e | e
        · -- the child is `.` or empty: the directory is there already
          have hl' : resolve cwd p = resolve cwd (dividePath p).1 := by rw [hl, e]
          obtain ⟨ho3, hg3⟩ := he (makeDirF env cwd f (env k fs) (k + 1) (dividePath p).1).calls _ b2
          have hd3 := hg3.keep _ _ b3
          rw [← hl'] at hd3
          have hm : mkdir (env (makeDirF env cwd f (env k fs) (k + 1) (dividePath p).1).calls
              (makeDirF env cwd f (env k fs) (k + 1) (dividePath p).1).fs) (resolve cwd p) = none := by
            unfold mkdir; rw [if_neg]; rintro ⟨e, _⟩; rw [fileType_dir ho3 hd3] at e; cases e
          unfold makeLast
          dsimp only
          rw [hm]
          dsimp only
          obtain ⟨ho4, hg4⟩ := he ((makeDirF env cwd f (env k fs) (k + 1) (dividePath p).1).calls + 1) _ ho3
          have hd4 := hg4.keep _ _ hd3
          exact ⟨by rw [fileType_dir ho4 hd4]; rfl, ho4, hd4, hg1.trans (b4.trans (hg3.trans hg4))⟩
        · obtain ⟨a1, a2, a3, a4⟩ := makeLast_ok he (l := resolve cwd p) b2 (b4.free hf1)
            (by rw [hl, e]; exact b3) (hS _ (List.prefix_refl _))
          exact ⟨a1, a2, a3, hg1.trans (b4.trans a4)⟩
    · rw [hx]
      exact ⟨rfl, ho1, hd, hg1⟩

/-- **C77.** If nothing but directories is on the way, `makeDir` succeeds whatever directories other processes
make in the meantime (wherever they make them); afterwards the path is a directory and everything that was there still is. -/
theorem C77_makeDir_concurrent {env : Nat → FS → FS} (he : OnlyMakes (fun _ => True) env) {cwd : List Bytes} {fs : FS} {p : Bytes} (hp : p ≠ [])
    (hn : NoNul p) (ho : fs.Ok) (hc : fs cwd = some .dir) (hfree : WayFree fs (resolve cwd p)) :
    (makeDir env cwd fs p).ok = true ∧ (makeDir env cwd fs p).fs (resolve cwd p) = some .dir ∧
    ∀ l k, fs l = some k → (makeDir env cwd fs p).fs l = some k := by
  obtain ⟨h1, _, h3, h4⟩ := makeDirF_ok he (p.length + 1) p fs 0 (by omega) hp hn ho hc hfree (fun _ _ => trivial)
  exact ⟨h1, h3, h4.keep⟩

/-- **C77.** Undisturbed, `makeDir` makes exactly the directories that are missing on the way to the path. -/
theorem C77_makeDir {cwd : List Bytes} {fs : FS} {p : Bytes} (hp : p ≠ []) (hn : NoNul p) (ho : fs.Ok) (hc : fs cwd = some .dir)
    (hfree : WayFree fs (resolve cwd p)) :
    (makeDir (fun _ s => s) cwd fs p).ok = true ∧
    ∀ l, (makeDir (fun _ s => s) cwd fs p).fs l = if l <+: resolve cwd p then some .dir else fs l := by
  obtain ⟨h1, h2, h3, h4⟩ := makeDirF_ok (S := fun m => m <+: resolve cwd p) (env := fun _ s => s) (fun _ _ h => ⟨h, Grown.refl _⟩)
    (p.length + 1) p fs 0 (by omega) hp hn ho hc hfree (fun _ h => h)
  refine ⟨h1, fun l => ?_⟩
  show (makeDirF _ _ _ _ _ _).fs l = _
  split
  · rename_i hl
    obtain ⟨t, ht⟩ := hl
    cases t with
    | nil => rw [List.append_nil] at ht; rw [ht]; exact h3
    | cons x t => exact h2.prefix_dir (x :: t) l (by rw [ht, h3]; simp) (by simp)
  · rename_i hl
    cases hf : fs l with
    | some k => exact h4.keep l k hf
    | none =>
      rcases h4.new l hf with e | ⟨_, e⟩
      · exact e
      · exact absurd e hl

theorem walk_blocked {fs : FS} {k : Kind} (hk : k ≠ .dir) : ∀ (m t pre : List Bytes), (∀ q, q <+: m → q ≠ m → fs (pre ++ q) = some .dir) →
    fs (pre ++ m) = some k → t ≠ [] → walk fs pre (m ++ t) = .unknown
  | [], t, pre, _, h, ht => by
    cases t with
    | nil => exact absurd rfl ht
    | cons c t =>
      rw [List.append_nil] at h
      rw [List.nil_append, walk, h]
      cases k <;> first | exact absurd rfl hk | rfl
  | c :: m, t, pre, hq, h, ht => by
    have h0 := hq [] List.nil_prefix (by simp)
    rw [List.append_nil] at h0
    rw [List.cons_append, walk, h0]
    dsimp only
    refine walk_blocked hk m t (pre ++ [c]) (fun q hpre hne => ?_) (by rw [List.append_assoc]; exact h) ht
    rw [List.append_assoc]
    exact hq (c :: q) (List.cons_prefix_cons.2 ⟨rfl, hpre⟩) (by simpa using hne)

theorem fileType_at {fs : FS} (ho : fs.Ok) {l : List Bytes} (h : fs l = some .reg) : fileType fs l = .regular := by
  have : ∀ (l pre : List Bytes), (∀ q, q <+: l → q ≠ l → fs (pre ++ q) = some .dir) → fs (pre ++ l) = some .reg → walk fs pre l = .regular := by
    intro l
    induction l with
    | nil => intro pre _ h; rw [List.append_nil] at h; rw [walk, h]
    | cons c l ih =>
      intro pre hq h
      have h0 := hq [] List.nil_prefix (by simp)
      rw [List.append_nil] at h0
      rw [walk, h0]
      dsimp only
      refine ih _ (fun q hpre hne => ?_) (by rw [List.append_assoc]; exact h)
      rw [List.append_assoc]
      exact hq (c :: q) (List.cons_prefix_cons.2 ⟨rfl, hpre⟩) (by simpa using hne)
  refine this l [] (fun q hq hne => ?_) (by simpa using h)
  rw [List.nil_append]
  obtain ⟨t, rfl⟩ := hq
  cases t with
  | nil => simp at hne
  | cons x t => exact ho.prefix_dir (x :: t) q (by rw [h]; simp) (by simp)

/-- **C77.** If a regular file is on the way (or is the path), `makeDir` fails and changes nothing. -/
theorem C77_makeDir_refused {cwd : List Bytes} {fs : FS} {p : Bytes} (hp : p ≠ []) (ho : fs.Ok) {m : List Bytes} (hm : m <+: resolve cwd p)
    (hr : fs m = some .reg) : (makeDir (fun _ s => s) cwd fs p).ok = false ∧ (makeDir (fun _ s => s) cwd fs p).fs = fs := by
  have ht : fileType fs (resolve cwd p) = .regular ∨ fileType fs (resolve cwd p) = .unknown := by
    obtain ⟨t, ht⟩ := hm
    cases t with
    | nil => rw [List.append_nil] at ht; subst ht; exact Or.inl (fileType_at ho hr)
    | cons x t =>
      right
      rw [← ht]
      unfold fileType
      refine walk_blocked (k := .reg) (by simp) m (x :: t) [] (fun q hq hne => ?_) (by simpa using hr) (by simp)
      rw [List.nil_append]
      obtain ⟨u, rfl⟩ := hq
      cases u with
      | nil => simp at hne
      | cons y u => exact ho.prefix_dir (y :: u) q (by rw [hr]; simp) (by simp)
  unfold makeDir makeDirF
  rw [if_neg hp]
  dsimp only
  rcases ht with e | e <;> rw [e] <;> exact ⟨rfl, rfl⟩

/-- A file system with the working directory `/w` and a file `/w/f`. -/
def sampleFS : FS := fun l =>
  if l = [] ∨ l = [ascii "w"] then some .dir else if l = [ascii "w", ascii "f"] then some .reg else none

theorem sampleFS_ok : sampleFS.Ok := by
  refine ⟨rfl, fun l x h => ?_⟩
  unfold sampleFS at h ⊢
  split at h
  · rename_i hc
    rcases hc with hc | hc
    · simp at hc
    · cases l with
      | nil => rfl
      | cons y l => simp at hc
  · split at h
    · rename_i hc
      cases l with
      | nil => rfl
      | cons y l =>
        cases l with
        | nil => simp at hc; simp [hc.1]
        | cons z l => simp at hc
    · exact absurd rfl h

example : WayFree sampleFS (resolve [ascii "w"] (ascii "a//./b/")) ∧ resolve [ascii "w"] (ascii "a//./b/") = [ascii "w", ascii "a", ascii "b"] ∧
    (makeDir (fun _ s => s) [ascii "w"] sampleFS (ascii "a//./b/")).fs [ascii "w", ascii "a"] = some .dir := by
  have e : resolve [ascii "w"] (ascii "a//./b/") = [ascii "w", ascii "a", ascii "b"] := by decide +kernel
  refine ⟨?_, e, ?_⟩
  · rw [e]
    intro m hm
    have : m = [] ∨ m = [ascii "w"] ∨ m = [ascii "w", ascii "a"] ∨ m = [ascii "w", ascii "a", ascii "b"] := by
      obtain ⟨t, ht⟩ := hm
      match m, ht with
      | [], _ => simp
      | [_], ht => simp at ht; simp [ht]
      | [_, _], ht => simp at ht; simp [ht]
      | [_, _, _], ht => simp at ht; simp [ht]
      | _ :: _ :: _ :: _ :: _, ht => simp at ht
    rcases this with rfl | rfl | rfl | rfl <;> decide +kernel
  · decide +kernel

/-- **C77 violated** for links: `makeDir` succeeds on a link, whether or not it leads to a directory. -/
theorem C77_link_violated (cwd : List Bytes) :
    let fs : FS := fun l => if l = [] then some .dir else if l = [ascii "x"] then some .link else none
    (makeDir (fun _ s => s) cwd fs (ascii "/x")).ok = true ∧ (makeDir (fun _ s => s) cwd fs (ascii "/x")).fs [ascii "x"] ≠ some .dir := by
  have : resolve cwd (ascii "/x") = [ascii "x"] := by
    have h1 : absolute (ascii "/x") = true := by decide +kernel
    have h2 : comps (ascii "/x") = [ascii "x"] := by decide +kernel
    unfold resolve; rw [h1, h2]; rfl
  have hne : ascii "/x" ≠ [] := by decide
  dsimp only
  unfold makeDir makeDirF
  rw [if_neg hne]
  dsimp only
  rw [this]
  have hf : fileType (fun l => if l = [] then some .dir else if l = [ascii "x"] then some .link else none) [ascii "x"] = .symLink := by decide +kernel
  rw [hf]
  refine ⟨rfl, ?_⟩
  have : ascii "x" ≠ [] := by decide
  simp

end Fs
end Nebula
