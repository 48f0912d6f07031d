import Verif.Web.HandlersSpec
import Verif.Conf.FlagsProps
import Verif.Net.Props
/-! # C100–C102: the web service's flags and statistics -/
namespace Nebula
namespace Web
open Json Conf Net
variable {F : Type}

/-! ## C100: PUT /flags -/

theorem setOption_some {accept : FlagInfo → Bytes → Option Bytes} {name value : Bytes} : ∀ {fs fs' : List FlagInfo}, DistinctNames fs →
    setOption accept name value fs = some fs' →
    (∃ f ∈ fs, f.name = name ∧ accept f value ≠ none) ∧ fs'.map (·.name) = fs.map (·.name) ∧
      All2 (fun f f' => (f.name ≠ name ∧ f' = f) ∨ (f.name = name ∧ ∃ t, accept f value = some t ∧ f' = { f with current := t, isDefault := false })) fs fs'
  | [], _, _, h => by simp [setOption] at h
  | f :: fs, fs', hd, h => by
    rw [setOption] at h
    unfold DistinctNames at hd
    simp only [List.map_cons, List.nodup_cons] at hd
    split at h
    · rename_i hn
      simp only [Option.map_eq_some_iff] at h
      obtain ⟨t, ht, rfl⟩ := h
      refine ⟨⟨f, by simp, hn, by simp [ht]⟩, by simp, .cons (Or.inr ⟨hn, t, ht, rfl⟩) ?_⟩
      have : ∀ gs : List FlagInfo, (∀ g ∈ gs, g.name ≠ name) →
          All2 (fun f f' => (f.name ≠ name ∧ f' = f) ∨ (f.name = name ∧ ∃ t, accept f value = some t ∧ f' = { f with current := t, isDefault := false })) gs gs := by
        intro gs
        induction gs with
        | nil => intro _; exact .nil
        | cons g gs ih => intro hg; exact .cons (Or.inl ⟨hg g (by simp), rfl⟩) (ih fun x hx => hg x (List.mem_cons_of_mem _ hx))
      exact this fs fun g hg e => hd.1 (by rw [hn, ← e]; exact List.mem_map.mpr ⟨g, hg, rfl⟩)
    · rename_i hn
      simp only [Option.map_eq_some_iff] at h
      obtain ⟨gs, hgs, rfl⟩ := h
      obtain ⟨⟨g, hg, h1⟩, h2, h3⟩ := setOption_some hd.2 hgs
      exact ⟨⟨g, List.mem_cons_of_mem _ hg, h1⟩, by simp [h2], .cons (Or.inl ⟨hn, rfl⟩) h3⟩

theorem setOption_none {accept : FlagInfo → Bytes → Option Bytes} {name value : Bytes} : ∀ {fs : List FlagInfo}, DistinctNames fs →
    (setOption accept name value fs = none ↔ Failed accept fs name value)
  | [], _ => by simp [setOption, Failed]
  | f :: fs, hd => by
    unfold DistinctNames at hd
    simp only [List.map_cons, List.nodup_cons] at hd
    rw [setOption]
    split
    · rename_i hn
      simp only [Option.map_eq_none_iff, Failed, List.mem_cons, forall_eq_or_imp]
      refine ⟨fun h => ⟨fun _ => h, fun g hg e => ?_⟩, fun h => h.1 hn⟩
      exact absurd (List.mem_map.mpr ⟨g, hg, e.trans hn.symm⟩) hd.1
    · rename_i hn
      rw [Option.map_eq_none_iff, setOption_none hd.2]
      simp [Failed, hn]

/-- The items of a request as texts. -/
def Items (C : Conv F) (l : List (Bytes × Dyn F)) (ts : List (Bytes × Bytes)) : Prop := All2 (fun e t => e.1 = t.1 ∧ ScalarText C e.2 t.2) l ts

theorem All2.imp' {α β : Type} {R S : α → β → Prop} (hrs : ∀ a b, R a b → S a b) : ∀ {l : List α} {m : List β}, All2 R l m → All2 S l m
  | _, _, .nil => .nil
  | _, _, .cons h t => .cons (hrs _ _ h) (All2.imp' hrs t)

theorem All2.comp {α β γ : Type} {R : α → β → Prop} {S : β → γ → Prop} {Q : α → γ → Prop} (h : ∀ a b c, R a b → S b c → Q a c) :
    ∀ {l : List α} {m : List β} {n : List γ}, All2 R l m → All2 S m n → All2 Q l n
  | _, _, _, .nil, .nil => .nil
  | _, _, _, .cons a b, .cons c d => .cons (h _ _ _ a c) (All2.comp h b d)

/-- Whether a flag accepts a text does not depend on the text it has. -/
def AcceptsByType (accept : FlagInfo → Bytes → Option Bytes) : Prop := ∀ (f : FlagInfo) (t t' : Bytes) (b : Bool), accept { f with current := t', isDefault := b } t = accept f t

theorem setLoop_spec {C : Conv F} {accept : FlagInfo → Bytes → Option Bytes} (hacc : AcceptsByType accept) :
    ∀ (l : List (Bytes × Dyn F)) (ts : List (Bytes × Bytes)) (failed : List Bytes) (fs : List FlagInfo), DistinctNames fs → Items C l ts →
      (∀ t ∈ ts, (0 : UInt8) ∉ t.1 ∧ (0 : UInt8) ∉ t.2) → (ts.map (·.1)).Nodup →
      ∃ bad fs', setLoop C accept l failed fs = some (failed ++ bad, fs') ∧ fs'.map (·.name) = fs.map (·.name) ∧ All2 (After accept ts) fs fs' ∧
        List.Sublist bad (ts.map (·.1)) ∧ ∀ t ∈ ts, t.1 ∈ bad ↔ Failed accept fs t.1 t.2
  | [], _, failed, fs, hd, .nil, _, _ => by
    refine ⟨[], fs, by simp [setLoop], rfl, ?_, by simp, by simp⟩
    clear hd
    induction fs with
    | nil => exact .nil
    | cons f fs ih => exact .cons (.unnamed (by simp)) ih
  | (k, v) :: l, _, failed, fs, hd, .cons (b := (k', s)) (m := ts) ⟨hk, hs⟩ hl, h0, hn => by
    simp only at hk hs; subst hk
    simp only [List.map_cons, List.nodup_cons] at hn
    have h0' := h0 (k, s) (by simp)
    rw [setLoop, asString_iff.mpr hs]
    simp only [cstr_id h0'.1, cstr_id h0'.2]
    cases hso : setOption accept k s fs with
    | none =>
      have hf := (setOption_none hd).mp hso
      obtain ⟨bad, fs', h1, h2, h3, h4, h5⟩ := setLoop_spec hacc l ts (failed ++ [k]) fs hd hl (fun t ht => h0 t (List.mem_cons_of_mem _ ht)) hn.2
      refine ⟨k :: bad, fs', by simp [h1], h2, ?_, by simpa using h4.cons_cons k, ?_⟩
      · have haux : ∀ {gs gs' : List FlagInfo}, (∀ g ∈ gs, g.name = k → accept g s = none) → All2 (After accept ts) gs gs' → All2 (After accept ((k, s) :: ts)) gs gs' := by
          intro gs gs' hg h
          induction h with
          | nil => exact .nil
          | @cons f f' fs fs' hff _ ih =>
            refine .cons ?_ (ih fun g hgm => hg g (List.mem_cons_of_mem _ hgm))
            cases hff with
            | unnamed hu =>
              by_cases hfk : f.name = k
              · exact .refused (t := s) (by simp [hfk]) (hg f (by simp) hfk)
              · exact .unnamed (by simpa [hfk] using hu)
            | refused hm hr => exact .refused (List.mem_cons_of_mem _ hm) hr
            | set hm hr => exact .set (List.mem_cons_of_mem _ hm) hr
        exact haux hf h3
      · intro t ht
        rcases List.mem_cons.mp ht with rfl | ht
        · simp [hf]
        · have hne : t.1 ≠ k := fun e => hn.1 (e ▸ List.mem_map.mpr ⟨t, ht, rfl⟩)
          simp [hne, h5 t ht]
    | some gs =>
      obtain ⟨⟨f0, hf0, hfn, hfa⟩, hnames, hstep⟩ := setOption_some hd hso
      have hd' : DistinctNames gs := by unfold DistinctNames; rw [hnames]; exact hd
      obtain ⟨bad, fs', h1, h2, h3, h4, h5⟩ := setLoop_spec hacc l ts failed gs hd' hl (fun t ht => h0 t (List.mem_cons_of_mem _ ht)) hn.2
      have hkbad : k ∉ bad := fun hb => hn.1 (h4.subset hb)
      refine ⟨bad, fs', by simp [h1], h2.trans hnames, ?_, h4.trans (by simp), ?_⟩
      · refine All2.comp (fun f g f' hfg hgf => ?_) hstep h3
        rcases hfg with ⟨hne, rfl⟩ | ⟨heq, t, ht, rfl⟩
        · cases hgf with
          | unnamed hu => exact .unnamed (by simpa [hne] using hu)
          | refused hm hr => exact .refused (List.mem_cons_of_mem _ hm) hr
          | set hm hr => exact .set (List.mem_cons_of_mem _ hm) hr
        · have hun : ∀ t', (f.name, t') ∉ ts := fun t' hm => hn.1 (by rw [← heq]; exact List.mem_map.mpr ⟨_, hm, rfl⟩)
          cases hgf with
          | unnamed hu => exact .set (t := s) (by simp [heq]) ht
          | refused hm _ => exact absurd hm (hun _)
          | set hm _ => exact absurd hm (hun _)
      · intro t ht
        rcases List.mem_cons.mp ht with rfl | ht
        · simp only [hkbad, false_iff]
          intro hf; exact hfa (hf f0 hf0 hfn)
        · rw [h5 t ht]
          have hne : t.1 ≠ k := fun e => hn.1 (e ▸ List.mem_map.mpr ⟨t, ht, rfl⟩)
          -- the other flags are the same
          have : ∀ {fs gs : List FlagInfo}, All2 (fun f f' => (f.name ≠ k ∧ f' = f) ∨ (f.name = k ∧ ∃ t, accept f s = some t ∧ f' = { f with current := t, isDefault := false })) fs gs →
              (Failed accept gs t.1 t.2 ↔ Failed accept fs t.1 t.2) := by
            intro fs gs h
            induction h with
            | nil => rfl
            | @cons f g fs gs hfg _ ih =>
              simp only [Failed, List.mem_cons, forall_eq_or_imp] at ih ⊢
              rw [ih]
              rcases hfg with ⟨_, rfl⟩ | ⟨hfk, u, _, rfl⟩
              · rfl
              · rw [hacc f t.2 u false]
          exact this hstep

theorem All2.perm {α β : Type} {R : α → β → Prop} {l l' : List α} (hp : l'.Perm l) : ∀ {m : List β}, All2 R l m → ∃ m', m'.Perm m ∧ All2 R l' m' := by
  induction hp with
  | nil => intro m h; exact ⟨m, .refl _, h⟩
  | cons x _ ih =>
    intro m h
    cases h with
    | cons ha hb => obtain ⟨m', h1, h2⟩ := ih hb; exact ⟨_, h1.cons _, .cons ha h2⟩
  | swap x y l =>
    intro m h
    cases h with
    | cons ha hb => cases hb with
      | cons hc hd => exact ⟨_, .swap _ _ _, .cons hc (.cons ha hd)⟩
  | trans _ _ ih1 ih2 =>
    intro m h
    obtain ⟨m1, h1, h2⟩ := ih2 h
    obtain ⟨m2, h3, h4⟩ := ih1 h2
    exact ⟨m2, h3.trans h1, h4⟩

theorem After.mono {accept : FlagInfo → Bytes → Option Bytes} {l l' : List (Bytes × Bytes)} (h : ∀ e, e ∈ l ↔ e ∈ l') {f g : FlagInfo} (ha : After accept l f g) : After accept l' f g := by
  cases ha with
  | unnamed hu => exact .unnamed fun t ht => hu t ((h _).mpr ht)
  | refused hm hr => exact .refused ((h _).mp hm) hr
  | set hm hr => exact .set ((h _).mp hm) hr

/-- C100: a request whose body is a JSON object of scalars sets every named flag to the text given for it unless there is no such flag or the flag refuses
the text; all other flags stay as they are, and the answer names exactly those that failed, each once. -/
theorem C100_set (D : Doubles F) (C : Conv F) {ord : List Bytes → List Bytes} (hord : ∀ l, (ord l).Perm l) {it : List (Bytes × Dyn F) → List (Bytes × Dyn F)}
    (hit : ∀ l, (it l).Perm l) {accept : FlagInfo → Bytes → Option Bytes}
    (hacc : AcceptsByType accept) (fs : List FlagInfo) (hd : DistinctNames fs) (body : Bytes) (l : List (Bytes × Dyn F)) (ts : List (Bytes × Bytes))
    (hp : parse D body = some (.obj l)) (hne : l ≠ []) (hl : Items C l ts) (h0 : ∀ t ∈ ts, (0 : UInt8) ∉ t.1 ∧ (0 : UInt8) ∉ t.2) (hn : (ts.map (·.1)).Nodup) :
    ∃ text bad fs', setFlags D C ord it accept true (some body) fs = some (⟨200, text⟩, fs') ∧ All2 (After accept ts) fs fs' ∧
      bad.Nodup ∧ (∀ n, n ∈ bad ↔ ∃ t, (n, t) ∈ ts ∧ Failed accept fs n t) ∧
      parse D text = some (if bad = [] then .obj [(ascii "errCode", .int 0)] else .obj [(ascii "failedOptions", .arr (bad.map .str))]) := by
  obtain ⟨us, hus, hlu⟩ := All2.perm (hit l) hl
  have hnu : (us.map (·.1)).Nodup := (hus.map _).nodup_iff.mpr hn
  obtain ⟨bad, fs', h1, _, h3, h4, h5⟩ := setLoop_spec hacc (it l) us [] fs hd hlu (fun t ht => h0 t (hus.mem_iff.mp ht)) hnu
  rw [List.nil_append] at h1
  have hlist : ∀ (p : Option Nat) (b : List Bytes), ∃ es, dumpList D ord p (b.map Dyn.str) = some es := by
    intro p b
    induction b with
    | nil => exact ⟨[], rfl⟩
    | cons x b ih => obtain ⟨es, he⟩ := ih; exact ⟨quote x :: es, by simp [dumpList, dump, he]⟩
  have hfl : ∀ b : List Bytes, FineList D (b.map Dyn.str) := by
    intro b; induction b with
    | nil => trivial
    | cons x b ih => exact ⟨trivial, ih⟩
  have hdl : ∀ b : List Bytes, depthList (b.map (Dyn.str (F := F))) ≤ 1 := by
    intro b; induction b with
    | nil => simp [depthList]
    | cons x b ih => simp [depthList, depth]; omega
  have hsl : ∀ (b : List Bytes) (vs : List (Dyn F)), SameList (b.map Dyn.str) vs → vs = b.map Dyn.str := by
    intro b; induction b with
    | nil => intro vs h; cases h; rfl
    | cons x b ih => intro vs h; cases h with
      | cons ha hb => cases ha; rw [ih _ hb]; rfl
  have hse : ∀ (k : Bytes) (a v : Dyn F), (∀ w, Same a w → w = a) → Same (.obj [(k, a)]) v → v = .obj [(k, a)] := by
    intro k a v ha h
    cases h with
    | obj hpm hs =>
      rw [List.perm_comm] at hpm
      rw [List.perm_singleton.mp hpm] at hs
      cases hs with
      | cons hab ht => cases ht; rw [ha _ hab]
  have hanswer : ∃ text, dump D ord (some 0) (if bad = [] then .obj [(ascii "errCode", .int 0)] else .obj [(ascii "failedOptions", .arr (bad.map .str))]) = some text ∧
      parse D text = some (if bad = [] then .obj [(ascii "errCode", .int 0)] else .obj [(ascii "failedOptions", .arr (bad.map .str))]) := by
    by_cases hb : bad = []
    · simp only [if_pos hb]
      have : ∃ text, dump D ord (some 0) (.obj [(ascii "errCode", .int 0)]) = some text := by simp [dump, dumpEntries]
      obtain ⟨text, ht⟩ := this
      obtain ⟨v, hv, hs⟩ := parse_dump D hord (.obj [(ascii "errCode", .int 0)]) _ text (by simp [Fine, FineEntries]; decide) (by simp [depth, depthEntries, maxDepth]) ht
      exact ⟨text, ht, by rw [hv, hse _ _ v (fun w hw => by cases hw; rfl) hs]⟩
    · simp only [if_neg hb]
      have : ∃ text, dump D ord (some 0) (.obj [(ascii "failedOptions", .arr (bad.map .str))]) = some text := by
        obtain ⟨es, he⟩ := hlist (some 2) bad
        simp [dump, dumpEntries, deeper, he]
      obtain ⟨text, ht⟩ := this
      obtain ⟨v, hv, hs⟩ := parse_dump D hord (.obj [(ascii "failedOptions", .arr (bad.map .str))]) _ text (by simp [Fine, FineEntries, hfl])
        (by have := hdl bad; simp [depth, depthEntries, maxDepth]; omega) ht
      exact ⟨text, ht, by rw [hv, hse _ _ v (fun w hw => by cases hw with | arr h => rw [hsl _ _ h]) hs]⟩
  obtain ⟨text, ht, htp⟩ := hanswer
  refine ⟨text, bad, fs', ?_, All2.imp' (fun _ _ h => After.mono (fun e => hus.mem_iff) h) h3, hnu.sublist h4, ?_, htp⟩
  rotate_left
  · intro n
    constructor
    · intro hb
      obtain ⟨t, ht, rfl⟩ := List.mem_map.mp (h4.subset hb)
      exact ⟨t.2, hus.mem_iff.mp ht, (h5 t ht).mp hb⟩
    · rintro ⟨t, ht, hf⟩
      exact (h5 (n, t) (hus.mem_iff.mpr ht)).mpr hf
  have hemp : isEmpty (F := F) (.obj l) = some false := by cases l with
    | nil => exact absurd rfl hne
    | cons _ _ => rfl
  simp only [setFlags, hp, Option.bind_some, hemp, Bool.false_eq_true, if_false, Bool.true_eq_false, h1, ht, Option.map_some]

/-- C100: a body that is no JSON text, or an empty one, is refused and nothing changes. -/
theorem C100_bad_text (D : Doubles F) (C : Conv F) (ord : List Bytes → List Bytes) (it : List (Bytes × Dyn F) → List (Bytes × Dyn F)) (accept : FlagInfo → Bytes → Option Bytes) (fs : List FlagInfo) (put : Bool) (body : Bytes)
    (h : parse D body = none ∨ parse D body = some (.obj []) ∨ parse D body = some .null) :
    setFlags D C ord it accept put (some body) fs = some (⟨400, []⟩, fs) := by
  rcases h with h | h | h <;> simp [setFlags, h, isEmpty]

/-- C100 fails for requests without a body, with a JSON array or text, or with a value that is not a scalar: the process ends. -/
theorem C100_crash_violated (D : Doubles F) (C : Conv F) (ord : List Bytes → List Bytes) {it : List (Bytes × Dyn F) → List (Bytes × Dyn F)} (hit : ∀ l, (it l).Perm l)
    (accept : FlagInfo → Bytes → Option Bytes) (fs : List FlagInfo) (put : Bool) :
    setFlags D C ord it accept put none fs = none ∧
    setFlags D C ord it accept true (some (ascii "[true]")) fs = none ∧
    setFlags D C ord it accept true (some (ascii "\"wal_ttl\"")) fs = none ∧
    setFlags D C ord it accept true (some (ascii "{\"wal_ttl\":null}")) fs = none := by
  refine ⟨rfl, ?_, ?_, ?_⟩
  · have : parse D (ascii "[true]") = some (.arr [.bool true]) := by
      rw [show ascii "[true]" = [91, 116, 114, 117, 101, 93] by decide +kernel]; rfl
    simp [setFlags, this, isEmpty]
  · have : parse D (ascii "\"wal_ttl\"") = some (.str (ascii "wal_ttl")) := by
      rw [show ascii "\"wal_ttl\"" = [34, 119, 97, 108, 95, 116, 116, 108, 34] by decide +kernel]
      rw [show ascii "wal_ttl" = [119, 97, 108, 95, 116, 116, 108] by decide +kernel]; rfl
    have hne : ascii "wal_ttl" ≠ [] := by decide +kernel
    simp [setFlags, this, isEmpty, hne]
  · have : parse D (ascii "{\"wal_ttl\":null}") = some (.obj [(ascii "wal_ttl", .null)]) := by
      rw [show ascii "{\"wal_ttl\":null}" = [123, 34, 119, 97, 108, 95, 116, 116, 108, 34, 58, 110, 117, 108, 108, 125] by decide +kernel]
      rw [show ascii "wal_ttl" = [119, 97, 108, 95, 116, 116, 108] by decide +kernel]; rfl
    have h1 : it [(ascii "wal_ttl", .null)] = [(ascii "wal_ttl", .null)] := List.perm_singleton.mp (hit _)
    simp [setFlags, this, isEmpty, h1, setLoop, asString]

/-! ## C101: GET /flags -/

theorem flagDyn_value {T : Texts F} {bigInt : Bytes → Option Int} {ty text : Bytes} {v : Dyn F} (h : FlagValue T bigInt ty text v) :
    flagDyn T bigInt ty text = some (some v) := by
  cases h with
  | @int n lo hi hm hb h1 h2 h3 =>
    have h5 : n < 2 ^ 63 := by omega
    simp only [intRanges, List.mem_cons, Prod.mk.injEq, List.not_mem_nil, or_false] at hm
    rcases hm with ⟨rfl, rfl, rfl⟩ | ⟨rfl, rfl, rfl⟩ | ⟨rfl, rfl, rfl⟩ | ⟨rfl, rfl, rfl⟩
    · have h4 : -2 ^ 31 ≤ n ∧ n ≤ 2 ^ 31 - 1 := by omega
      simp only [flagDyn, if_pos, intFlag, hb, Option.bind_some, if_pos h4, if_pos h5, Option.map_some]
    · have e1 : ascii "uint32" ≠ ascii "int32" := by decide +kernel
      have h4 : 0 ≤ n ∧ n ≤ 2 ^ 32 - 1 := by omega
      simp only [flagDyn, if_neg e1, if_pos, intFlag, hb, Option.bind_some, if_pos h4, if_pos h5, Option.map_some]
    · have e1 : ascii "int64" ≠ ascii "int32" := by decide +kernel
      have e2 : ascii "int64" ≠ ascii "uint32" := by decide +kernel
      have h4 : -2 ^ 63 ≤ n ∧ n ≤ 2 ^ 63 - 1 := by omega
      simp only [flagDyn, if_neg e1, if_neg e2, if_pos, intFlag, hb, Option.bind_some, if_pos h4, if_pos h5, Option.map_some]
    · have e1 : ascii "uint64" ≠ ascii "int32" := by decide +kernel
      have e2 : ascii "uint64" ≠ ascii "uint32" := by decide +kernel
      have e3 : ascii "uint64" ≠ ascii "int64" := by decide +kernel
      have h4 : 0 ≤ n ∧ n ≤ 2 ^ 64 - 1 := by omega
      simp only [flagDyn, if_neg e1, if_neg e2, if_neg e3, if_pos, intFlag, hb, Option.bind_some, if_pos h4, if_pos h5, Option.map_some]
  | bool ht hb =>
    subst ht
    have e : ascii "bool" ≠ ascii "int32" ∧ ascii "bool" ≠ ascii "uint32" ∧ ascii "bool" ≠ ascii "int64" ∧ ascii "bool" ≠ ascii "uint64" := by decide +kernel
    simp only [flagDyn, if_neg e.1, if_neg e.2.1, if_neg e.2.2.1, if_neg e.2.2.2, if_pos, hb, Option.map_some]
  | dbl ht hb =>
    subst ht
    have e : ascii "double" ≠ ascii "int32" ∧ ascii "double" ≠ ascii "uint32" ∧ ascii "double" ≠ ascii "int64" ∧ ascii "double" ≠ ascii "uint64" ∧
      ascii "double" ≠ ascii "bool" := by decide +kernel
    simp only [flagDyn, if_neg e.1, if_neg e.2.1, if_neg e.2.2.1, if_neg e.2.2.2.1, if_neg e.2.2.2.2, if_pos, hb, Option.map_some]
  | str ht =>
    subst ht
    have e : ascii "string" ≠ ascii "int32" ∧ ascii "string" ≠ ascii "uint32" ∧ ascii "string" ≠ ascii "int64" ∧ ascii "string" ≠ ascii "uint64" ∧
      ascii "string" ≠ ascii "bool" ∧ ascii "string" ≠ ascii "double" := by decide +kernel
    simp only [flagDyn, if_neg e.1, if_neg e.2.1, if_neg e.2.2.1, if_neg e.2.2.2.1, if_neg e.2.2.2.2.1, if_neg e.2.2.2.2.2, if_pos]

theorem flagInfo_mem {fs : List FlagInfo} (hd : DistinctNames fs) {f : FlagInfo} (hf : f ∈ fs) : flagInfo fs f.name = some f := by
  unfold flagInfo
  induction fs with
  | nil => simp at hf
  | cons g fs ih =>
    unfold DistinctNames at hd
    simp only [List.map_cons, List.nodup_cons] at hd
    rcases List.mem_cons.mp hf with rfl | hm
    · simp
    · have : (g.name == f.name) = false := by
        simp only [beq_eq_false_iff_ne]
        intro e; exact hd.1 (e ▸ List.mem_map.mpr ⟨f, hm, rfl⟩)
      rw [List.find?_cons, this]
      exact ih hd.2 hm

theorem flagInfo_none {fs : List FlagInfo} {name : Bytes} (h : ∀ f ∈ fs, f.name ≠ name) : flagInfo fs name = none := by
  simp only [flagInfo, List.find?_eq_none, beq_iff_eq]
  exact fun f hf => h f hf

theorem oneFlag_described {T : Texts F} {bigInt : Bytes → Option Int} {verbose : Bool} {fs : List FlagInfo} (hd : DistinctNames fs) {name : Bytes} {v : Dyn F}
    (h : Described T bigInt verbose fs name v) : oneFlag T bigInt verbose name (flagInfo fs name) = some v := by
  cases h with
  | unknown h => rw [flagInfo_none h]; rfl
  | short hv hf hn h => subst hn; rw [flagInfo_mem hd hf]; simp [oneFlag, flagDyn_value h, hv]
  | long hv hf hn h h' => subst hn; rw [flagInfo_mem hd hf]; simp [oneFlag, flagDyn_value h, flagDyn_value h', hv]

theorem collect_all {α β : Type} {g : α → Option β} : ∀ {l : List α} {m : List β}, All2 (fun a b => g a = some b) l m → collect (l.map g) = some m
  | _, _, .nil => rfl
  | _, _, .cons h t => by simp [collect, h, collect_all t]

theorem collect_all' {α β : Type} {g : α → Option β} {l : List α} {m : List β} {n : List (Option β)} (hn : n = l.map g) (h : All2 (fun a b => g a = some b) l m) :
    collect n = some m := hn ▸ collect_all h

theorem valToString_shown {C : Conv F} {v : Dyn F} {w : Bytes} (h : Shown C v w) : valToString C v = some w := by
  cases h <;> first | rfl | (simp only [valToString, asString]; decide +kernel)

theorem flagQuery_names {es : List Bytes} (he : es ≠ []) (hc : ∀ e ∈ es, (44 : UInt8) ∉ e) (v f : Option Bytes) :
    flagQuery v f (some (join [44] es)) = ⟨v == some (ascii "true"), f == some (ascii "json"), es.filter (· ≠ [])⟩ := by
  simp only [flagQuery, splitNonEmpty, splitAll_join 44 es he hc]

theorem All2.get {α β : Type} {R : α → β → Prop} : ∀ {l : List α} {m : List β}, All2 R l m → ∀ a ∈ l, ∃ b ∈ m, R a b
  | _, _, .nil, a, h => by simp at h
  | _, _, .cons h t, a, ha => by
    rcases List.mem_cons.mp ha with rfl | ha
    · exact ⟨_, by simp, h⟩
    · obtain ⟨b, hb, hr⟩ := All2.get t a ha; exact ⟨b, List.mem_cons_of_mem _ hb, hr⟩

theorem getFlags_named {T : Texts F} {bigInt : Bytes → Option Int} {fs : List FlagInfo} (hd : DistinctNames fs) {verbose json : Bool} {names : List Bytes} (hne : names ≠ [])
    (h0 : ∀ n ∈ names, (0 : UInt8) ∉ n) {vals : List (Dyn F)} (h : All2 (Described T bigInt verbose fs) names vals) :
    getFlags T bigInt ⟨verbose, json, names⟩ fs = some vals := by
  unfold getFlags
  rw [if_neg hne]
  refine collect_all ?_
  clear hne
  induction h with
  | nil => exact .nil
  | @cons n v names vals hnv _ ih =>
    refine .cons ?_ (ih fun m hm => h0 m (List.mem_cons_of_mem _ hm))
    rw [cstr_id (h0 n (by simp))]
    exact oneFlag_described hd hnv

theorem All2.split {α β γ : Type} {R : α → γ → Prop} {S : α → β → Prop} {Q : β → γ → Prop} (h : ∀ a c, R a c → ∃ b, S a b ∧ Q b c) :
    ∀ {l : List α} {n : List γ}, All2 R l n → ∃ m, All2 S l m ∧ All2 Q m n
  | _, _, .nil => ⟨[], .nil, .nil⟩
  | _, _, .cons a b => by
    obtain ⟨x, h1, h2⟩ := h _ _ a
    obtain ⟨m, h3, h4⟩ := All2.split h b
    exact ⟨x :: m, .cons h1 h3, .cons h2 h4⟩

/-- C101: the plain answer has one line for every flag that is asked for, in the order of the request, with its present value; names of no flag are shown
as `nullptr`. -/
theorem C101_text (D : Doubles F) (C : Conv F) (T : Texts F) (ord : List Bytes → List Bytes) (bigInt : Bytes → Option Int) (fs : List FlagInfo) (hd : DistinctNames fs)
    (es : List Bytes) (hc : ∀ e ∈ es, (44 : UInt8) ∉ e) (h0 : ∀ e ∈ es, (0 : UInt8) ∉ e) (hne : es.filter (· ≠ []) ≠ []) (ts : List Bytes)
    (h : All2 (fun n t => ∃ v w, Reported T bigInt fs n v ∧ Shown C v w ∧ t = n ++ ascii "=" ++ w ++ ascii "\n") (es.filter (· ≠ [])) ts) :
    replyFlags D C T ord bigInt true (flagQuery none none (some (join [44] es))) fs = some ⟨200, ts.flatten⟩ := by
  have he : es ≠ [] := by rintro rfl; exact hne rfl
  rw [flagQuery_names he hc]
  have h1 : (none == some (ascii "true")) = false := rfl
  have h2 : (none == some (ascii "json")) = false := rfl
  obtain ⟨vals, h3, h4⟩ := All2.split (S := Described T bigInt false fs) (Q := fun v t => flagText C false v = some t)
    (by
      rintro n t ⟨v, w, hr, hs, rfl⟩
      have hft : flagText C false (.obj [(ascii "name", .str n), (ascii "value", v)]) = some (n ++ ascii "=" ++ w ++ ascii "\n") := by
        have e1 : (ascii "name" == ascii "value") = false := by decide +kernel
        simp [flagText, at', find, asString, List.find?, e1, valToString_shown hs]
      cases hr with
      | flag hf hn hv => exact ⟨_, .short rfl hf hn hv, hft⟩
      | unknown hu => exact ⟨_, .unknown hu, hft⟩) h
  simp only [replyFlags, Bool.true_eq_false, if_false, h1, h2,
    getFlags_named hd hne (fun n hn => h0 n (List.mem_filter.mp hn).1) h3, Option.bind_some, Bool.false_eq_true, collect_all h4, Option.map_some]

theorem longText_shown {C : Conv F} {T : Texts F} {bigInt : Bytes → Option Int} {fs : List FlagInfo} {n t : Bytes} (h : LongText C T bigInt fs n t) :
    ∃ v, Described T bigInt true fs n v ∧ flagText C true v = some t := by
  obtain ⟨f, hf, hn, v, d, vt, dt, hv, hdv, hvt, hdt, rfl⟩ := h
  refine ⟨_, .long rfl hf hn hv hdv, ?_⟩
  have k : (ascii "name" == ascii "description") = false ∧ (ascii "value" == ascii "description") = false ∧ (ascii "default" == ascii "description") = false ∧
    (ascii "type" == ascii "description") = false ∧ (ascii "name" == ascii "file") = false ∧ (ascii "value" == ascii "file") = false ∧
    (ascii "default" == ascii "file") = false ∧ (ascii "type" == ascii "file") = false ∧ (ascii "description" == ascii "file") = false ∧
    (ascii "name" == ascii "type") = false ∧ (ascii "value" == ascii "type") = false ∧ (ascii "default" == ascii "type") = false ∧
    (ascii "name" == ascii "default") = false ∧ (ascii "value" == ascii "default") = false ∧ (ascii "name" == ascii "value") = false ∧
    (ascii "name" == ascii "is_default") = false ∧ (ascii "value" == ascii "is_default") = false ∧ (ascii "default" == ascii "is_default") = false ∧
    (ascii "type" == ascii "is_default") = false ∧ (ascii "description" == ascii "is_default") = false ∧ (ascii "file" == ascii "is_default") = false := by decide +kernel
  have hl : ascii "\n  file: " = ascii "\n" ++ ascii "  file: " := by decide +kernel
  obtain ⟨a1, a2, a3, a4, a5, a6, a7, a8, a9, b1, b2, b3, b4, b5, b6, c1, c2, c3, c4, c5, c6⟩ := k
  simp only [flagText, at', find, List.find?, a1, a2, a3, a4, a5, a6, a7, a8, a9, b1, b2, b3, b4, b5, b6, c1, c2, c3, c4, c5, c6, beq_self_eq_true,
    Option.map_some, Option.bind_some, id, asString, asBool, valToString_shown hvt, valToString_shown hdt, if_pos, hl, List.append_assoc]

/-- C101: with `verbose=true` the plain answer has the two lines of every flag asked for (all of them must exist). -/
theorem C101_verbose_partial (D : Doubles F) (C : Conv F) (T : Texts F) (ord : List Bytes → List Bytes) (bigInt : Bytes → Option Int) (fs : List FlagInfo) (hd : DistinctNames fs)
    (es : List Bytes) (hc : ∀ e ∈ es, (44 : UInt8) ∉ e) (h0 : ∀ e ∈ es, (0 : UInt8) ∉ e) (hne : es.filter (· ≠ []) ≠ []) (ts : List Bytes)
    (h : All2 (LongText C T bigInt fs) (es.filter (· ≠ [])) ts) :
    replyFlags D C T ord bigInt true (flagQuery (some (ascii "true")) none (some (join [44] es))) fs = some ⟨200, ts.flatten⟩ := by
  have he : es ≠ [] := by rintro rfl; exact hne rfl
  rw [flagQuery_names he hc]
  have h1 : (some (ascii "true") == some (ascii "true")) = true := by decide +kernel
  have h2 : (none == some (ascii "json")) = false := rfl
  obtain ⟨vals, h3, h4⟩ := All2.split (S := Described T bigInt true fs) (Q := fun v t => flagText C true v = some t)
    (fun n t h => longText_shown h) h
  simp only [replyFlags, Bool.true_eq_false, if_false, h1, h2,
    getFlags_named hd hne (fun n hn => h0 n (List.mem_filter.mp hn).1) h3, Option.bind_some, Bool.false_eq_true, collect_all h4, Option.map_some]

/-- C101: without names the answer has the lines of all flags. -/
theorem C101_all (D : Doubles F) (C : Conv F) (T : Texts F) (ord : List Bytes → List Bytes) (bigInt : Bytes → Option Int) (fs : List FlagInfo) (ts : List Bytes)
    (h : All2 (fun (f : FlagInfo) t => ∃ v w, FlagValue T bigInt f.type f.current v ∧ Shown C v w ∧ t = f.name ++ ascii "=" ++ w ++ ascii "\n") fs ts) :
    replyFlags D C T ord bigInt true (flagQuery none none none) fs = some ⟨200, ts.flatten⟩ := by
  have h1 : (none == some (ascii "true")) = false := rfl
  have h2 : (none == some (ascii "json")) = false := rfl
  obtain ⟨vals, h3, h4⟩ := All2.split (S := fun (f : FlagInfo) v => oneFlag T bigInt false f.name (some f) = some v) (Q := fun v t => flagText C false v = some t)
    (by
      rintro f t ⟨v, w, hv, hs, rfl⟩
      refine ⟨.obj [(ascii "name", .str f.name), (ascii "value", v)], by simp [oneFlag, flagDyn_value hv], ?_⟩
      have e1 : (ascii "name" == ascii "value") = false := by decide +kernel
      simp [flagText, at', find, asString, List.find?, e1, valToString_shown hs]) h
  simp only [replyFlags, flagQuery, Bool.true_eq_false, if_false, h1, h2, getFlags, if_pos, collect_all h3, Option.bind_some, Bool.false_eq_true, collect_all h4, Option.map_some]

/-- A value of a flag that can be written and read back. -/
def Plain (D : Doubles F) (v : Dyn F) : Prop := ∀ d, v = .dbl d → D.finite d = true ∧ RealText (D.text d) ∧ D.read (D.text d) = some d

theorem FlagValue.fine {D : Doubles F} {T : Texts F} {bigInt : Bytes → Option Int} {ty text : Bytes} {v : Dyn F} (h : FlagValue T bigInt ty text v) (hp : Plain D v) :
    Fine D v ∧ depth v = 1 ∧ ∀ ord p, ∃ e, dump D ord p v = some e := by
  cases h with
  | @int n lo hi hm hb h1 h2 h3 =>
    refine ⟨?_, rfl, fun ord p => ⟨_, rfl⟩⟩
    have : -9223372036854775808 ≤ lo := by
      simp only [intRanges, List.mem_cons, Prod.mk.injEq, List.not_mem_nil, or_false] at hm
      omega
    simp only [Fine, InI64]; omega
  | bool => exact ⟨trivial, rfl, fun ord p => ⟨_, rfl⟩⟩
  | @dbl d _ _ => have := hp d rfl; exact ⟨this.2, rfl, fun ord p => ⟨D.text d, by simp only [dump, this.1, if_pos]⟩⟩
  | str => exact ⟨trivial, rfl, fun ord p => ⟨_, rfl⟩⟩

/-- All flags have values that can be written and read back. -/
def AllPlain (D : Doubles F) (T : Texts F) (bigInt : Bytes → Option Int) (fs : List FlagInfo) : Prop :=
  ∀ f ∈ fs, ∀ v, FlagValue T bigInt f.type f.current v ∨ FlagValue T bigInt f.type f.default v → Plain D v

theorem Described.fine {D : Doubles F} {T : Texts F} {bigInt : Bytes → Option Int} {verbose : Bool} {fs : List FlagInfo} {name : Bytes} {v : Dyn F}
    (h : Described T bigInt verbose fs name v) (hp : AllPlain D T bigInt fs) : Fine D v ∧ depth v = 2 ∧ ∀ ord p, ∃ e, dump D ord p v = some e := by
  have k2 : ascii "name" ≠ ascii "value" := by decide +kernel
  cases h with
  | unknown => exact ⟨⟨by simp [k2], by simp [FineEntries, Fine]⟩, by simp [depth, depthEntries], fun ord p => by simp [dump, dumpEntries]⟩
  | short _ hf _ hv =>
    obtain ⟨h1, h2, h3⟩ := hv.fine (hp _ hf _ (Or.inl hv))
    refine ⟨⟨by simp [k2], by simp [FineEntries, Fine, h1]⟩, by simp [depth, depthEntries, h2], fun ord p => ?_⟩
    obtain ⟨e, he⟩ := h3 ord (deeper p)
    simp [dump, dumpEntries, he]
  | long _ hf _ hv hd =>
    obtain ⟨h1, h2, h3⟩ := hv.fine (hp _ hf _ (Or.inl hv))
    obtain ⟨h4, h5, h6⟩ := hd.fine (hp _ hf _ (Or.inr hd))
    refine ⟨⟨?_, by simp [FineEntries, Fine, h1, h4]⟩, by simp [depth, depthEntries, h2, h5], fun ord p => ?_⟩
    · show [ascii "name", ascii "value", ascii "default", ascii "type", ascii "description", ascii "file", ascii "is_default"].Nodup
      decide +kernel
    · obtain ⟨e, he⟩ := h3 ord (deeper p)
      obtain ⟨e', he'⟩ := h6 ord (deeper p)
      simp [dump, dumpEntries, he, he']

theorem described_list {D : Doubles F} {T : Texts F} {ord : List Bytes → List Bytes} {bigInt : Bytes → Option Int} {verbose : Bool} {fs : List FlagInfo}
    (hp : AllPlain D T bigInt fs) {names : List Bytes} {vals : List (Dyn F)} (h : All2 (Described T bigInt verbose fs) names vals) :
    FineList D vals ∧ depthList vals ≤ 2 ∧ ∀ p, ∃ es, dumpList D ord p vals = some es := by
  induction h with
  | nil => exact ⟨trivial, by simp [depthList], fun p => ⟨[], rfl⟩⟩
  | cons hv _ ih =>
    obtain ⟨i1, i2, i3⟩ := ih
    obtain ⟨j1, j2, j3⟩ := hv.fine hp
    refine ⟨⟨j1, i1⟩, by simp [depthList]; omega, fun p => ?_⟩
    obtain ⟨e, he⟩ := j3 ord p
    obtain ⟨es, hes⟩ := i3 p
    exact ⟨e :: es, by simp [dumpList, he, hes]⟩

/-- C101: the JSON answer, read back, has one object for every flag that is asked for, in the order of the request. -/
theorem C101_json (D : Doubles F) (C : Conv F) (T : Texts F) {ord : List Bytes → List Bytes} (hord : ∀ l, (ord l).Perm l) (bigInt : Bytes → Option Int)
    (fs : List FlagInfo) (hd : DistinctNames fs) (hp : AllPlain D T bigInt fs) (verbose : Bool)
    (es : List Bytes) (hc : ∀ e ∈ es, (44 : UInt8) ∉ e) (h0 : ∀ e ∈ es, (0 : UInt8) ∉ e) (hne : es.filter (· ≠ []) ≠ []) (vals : List (Dyn F))
    (h : All2 (Described T bigInt verbose fs) (es.filter (· ≠ [])) vals) :
    ∃ body v, replyFlags D C T ord bigInt true (flagQuery (if verbose then some (ascii "true") else none) (some (ascii "json")) (some (join [44] es))) fs = some ⟨200, body⟩ ∧
      parse D body = some v ∧ Same (.obj [(ascii "flags", .arr vals)]) v := by
  have he : es ≠ [] := by rintro rfl; exact hne rfl
  rw [flagQuery_names he hc]
  have h1 : ((if verbose then some (ascii "true") else none) == some (ascii "true")) = verbose := by cases verbose <;> decide +kernel
  have h2 : (some (ascii "json") == some (ascii "json")) = true := by decide +kernel
  obtain ⟨hf, hdp, hdump⟩ := described_list (ord := ord) hp h
  obtain ⟨pieces, hpc⟩ := hdump (deeper (deeper (some 0)))
  have : ∃ body, dump D ord (some 0) (.obj [(ascii "flags", .arr vals)]) = some body := by simp [dump, dumpEntries, hpc]
  obtain ⟨body, hb⟩ := this
  obtain ⟨v, hv, hs⟩ := parse_dump D hord (.obj [(ascii "flags", .arr vals)]) _ body (by simp [Fine, FineEntries, hf])
    (by simp [depth, depthEntries, maxDepth]; omega) hb
  refine ⟨body, v, ?_, hv, hs⟩
  simp only [replyFlags, Bool.true_eq_false, if_false, h1, h2,
    getFlags_named hd hne (fun n hn => h0 n (List.mem_filter.mp hn).1) h, Option.bind_some, if_pos, hb, Option.map_some]

theorem getFlags_all {T : Texts F} {bigInt : Bytes → Option Int} {fs : List FlagInfo} (hd : DistinctNames fs) {verbose json : Bool}
    {vals : List (Dyn F)} (h : All2 (fun (f : FlagInfo) v => Described T bigInt verbose fs f.name v) fs vals) :
    getFlags T bigInt ⟨verbose, json, []⟩ fs = some vals := by
  simp only [getFlags, if_pos]
  refine collect_all ?_
  have key : ∀ (l : List FlagInfo) (vals : List (Dyn F)), (∀ f ∈ l, f ∈ fs) → All2 (fun (f : FlagInfo) v => Described T bigInt verbose fs f.name v) l vals →
      All2 (fun (f : FlagInfo) v => oneFlag T bigInt verbose f.name (some f) = some v) l vals := by
    intro l vals hm h
    induction h with
    | nil => exact .nil
    | @cons f v l vals hv _ ih =>
      refine .cons ?_ (ih fun g hg => hm g (List.mem_cons_of_mem _ hg))
      have := oneFlag_described hd hv
      rwa [flagInfo_mem hd (hm f (by simp))] at this
  exact key fs vals (fun _ h => h) h

theorem All2.names {β : Type} {R : Bytes → β → Prop} : ∀ {l : List FlagInfo} {m : List β}, All2 (fun (f : FlagInfo) b => R f.name b) l m → All2 R (l.map (·.name)) m
  | _, _, .nil => .nil
  | _, _, .cons h t => .cons h (All2.names t)

/-- C101: the JSON answer without names, read back, has one object for every flag. -/
theorem C101_json_all (D : Doubles F) (C : Conv F) (T : Texts F) {ord : List Bytes → List Bytes} (hord : ∀ l, (ord l).Perm l) (bigInt : Bytes → Option Int)
    (fs : List FlagInfo) (hd : DistinctNames fs) (hp : AllPlain D T bigInt fs) (verbose : Bool) (vals : List (Dyn F))
    (h : All2 (fun (f : FlagInfo) v => Described T bigInt verbose fs f.name v) fs vals) :
    ∃ body v, replyFlags D C T ord bigInt true (flagQuery (if verbose then some (ascii "true") else none) (some (ascii "json")) none) fs = some ⟨200, body⟩ ∧
      parse D body = some v ∧ Same (.obj [(ascii "flags", .arr vals)]) v := by
  have h1 : ((if verbose then some (ascii "true") else none) == some (ascii "true")) = verbose := by cases verbose <;> decide +kernel
  have h2 : (some (ascii "json") == some (ascii "json")) = true := by decide +kernel
  obtain ⟨hf, hdp, hdump⟩ := described_list (ord := ord) hp (All2.names (R := Described T bigInt verbose fs) h)
  obtain ⟨pieces, hpc⟩ := hdump (deeper (deeper (some 0)))
  have : ∃ body, dump D ord (some 0) (.obj [(ascii "flags", .arr vals)]) = some body := by simp [dump, dumpEntries, hpc]
  obtain ⟨body, hb⟩ := this
  obtain ⟨v, hv, hs⟩ := parse_dump D hord (.obj [(ascii "flags", .arr vals)]) _ body (by simp [Fine, FineEntries, hf])
    (by simp [depth, depthEntries, maxDepth]; omega) hb
  refine ⟨body, v, ?_, hv, hs⟩
  simp only [replyFlags, flagQuery, Bool.true_eq_false, if_false, h1, h2, getFlags_all hd h, Option.bind_some, if_pos, hb, Option.map_some]

/-- C101: the plain verbose answer without names has the two lines of every flag. -/
theorem C101_verbose_all (D : Doubles F) (C : Conv F) (T : Texts F) (ord : List Bytes → List Bytes) (bigInt : Bytes → Option Int) (fs : List FlagInfo) (hd : DistinctNames fs)
    (ts : List Bytes) (h : All2 (fun (f : FlagInfo) t => LongText C T bigInt fs f.name t) fs ts) :
    replyFlags D C T ord bigInt true (flagQuery (some (ascii "true")) none none) fs = some ⟨200, ts.flatten⟩ := by
  have h1 : (some (ascii "true") == some (ascii "true")) = true := by decide +kernel
  have h2 : (none == some (ascii "json")) = false := rfl
  obtain ⟨vals, h3, h4⟩ := All2.split (S := fun (f : FlagInfo) v => Described T bigInt true fs f.name v) (Q := fun v t => flagText C true v = some t)
    (fun f t h => longText_shown h) h
  simp only [replyFlags, flagQuery, Bool.true_eq_false, if_false, h1, h2, getFlags_all hd h3, Option.bind_some, Bool.false_eq_true, collect_all h4, Option.map_some]

/-- C100, C101: what a request has set is what is shown afterwards. -/
theorem C101_after_set (T : Texts F) (bigInt : Bytes → Option Int) {accept : FlagInfo → Bytes → Option Bytes} (ts : List (Bytes × Bytes)) (hn : (ts.map (·.1)).Nodup)
    (fs fs' : List FlagInfo) (h : All2 (After accept ts) fs fs') (f : FlagInfo) (hf : f ∈ fs) (t t' : Bytes) (ht : (f.name, t) ∈ ts) (hok : accept f t = some t')
    (v : Dyn F) (hv : FlagValue T bigInt f.type t' v) : Reported T bigInt fs' f.name v := by
  obtain ⟨f', hf', ha⟩ := All2.get h f hf
  have huniq : ∀ u, (f.name, u) ∈ ts → u = t := by
    clear h hok hv ha
    intro u hu
    induction ts with
    | nil => simp at ht
    | cons x ts ih =>
      simp only [List.map_cons, List.nodup_cons] at hn
      rcases List.mem_cons.mp ht with rfl | ht <;> rcases List.mem_cons.mp hu with hu | hu
      · exact (Prod.mk.inj hu).2
      · exact absurd (List.mem_map.mpr ⟨_, hu, rfl⟩) hn.1
      · exact absurd (List.mem_map.mpr ⟨_, ht, by rw [← hu]⟩) hn.1
      · exact ih hn.2 ht hu
  cases ha with
  | unnamed hu => exact absurd ht (hu t)
  | refused hm hr => rw [huniq _ hm, hok] at hr; cases hr
  | @set u u' hm hr =>
    rw [huniq _ hm, hok] at hr; cases hr
    exact .flag hf' rfl hv

/-- C101 fails for verbose requests naming an unknown flag: the process ends. -/
theorem C101_verbose_violated (D : Doubles F) (C : Conv F) (T : Texts F) (ord : List Bytes → List Bytes) (bigInt : Bytes → Option Int) (fs : List FlagInfo)
    (h : ∀ f ∈ fs, f.name ≠ ascii "no_such_flag") :
    replyFlags D C T ord bigInt true (flagQuery (some (ascii "true")) none (some (ascii "no_such_flag"))) fs = none := by
  have hq : flagQuery (some (ascii "true")) none (some (ascii "no_such_flag")) = ⟨true, false, [ascii "no_such_flag"]⟩ := by
    have e1 : splitNonEmpty 44 (ascii "no_such_flag") = [ascii "no_such_flag"] := by decide +kernel
    have e2 : (some (ascii "true") == some (ascii "true")) = true := by decide +kernel
    simp only [flagQuery, e1, e2]; rfl
  have e3 : cstr (ascii "no_such_flag") = ascii "no_such_flag" := by decide +kernel
  have e4 : (ascii "name" == ascii "description") = false ∧ (ascii "value" == ascii "description") = false := by decide +kernel
  rw [hq]
  simp [replyFlags, getFlags, collect, e3, flagInfo_none h, oneFlag, flagText, at', find, List.find?, e4.1, e4.2, asString]

/-- C101 fails for unsigned flags above the signed range: they are shown as negative numbers. -/
theorem C101_unsigned_violated (D : Doubles F) (C : Conv F) (T : Texts F) (ord : List Bytes → List Bytes) (bigInt : Bytes → Option Int)
    (hb : bigInt (ascii "18446744073709551615") = some 18446744073709551615) (df ds fl : Bytes) (b : Bool) :
    replyFlags D C T ord bigInt true (flagQuery none none none) [⟨ascii "limit", ascii "uint64", ascii "18446744073709551615", df, ds, fl, b⟩] =
      some ⟨200, ascii "limit=-1\n"⟩ := by
  have e1 : ascii "uint64" ≠ ascii "int32" := by decide +kernel
  have e2 : ascii "uint64" ≠ ascii "uint32" := by decide +kernel
  have e3 : ascii "uint64" ≠ ascii "int64" := by decide +kernel
  have hq : flagQuery none none none = ⟨false, false, []⟩ := rfl
  have hone : oneFlag T bigInt false (ascii "limit") (some ⟨ascii "limit", ascii "uint64", ascii "18446744073709551615", df, ds, fl, b⟩) =
      some (.obj [(ascii "name", .str (ascii "limit")), (ascii "value", .int (-1))]) := by
    simp only [oneFlag, flagDyn, if_neg e1, if_neg e2, if_neg e3, if_pos, intFlag, hb, Option.bind_some]
    rfl
  have hv : (ascii "name" == ascii "value") = false := by decide +kernel
  have ht : ascii "limit" ++ ascii "=" ++ intDec (-1) ++ ascii "\n" = ascii "limit=-1\n" := by decide +kernel
  rw [hq]
  simp only [replyFlags, Bool.true_eq_false, if_false, getFlags, if_pos, List.map_cons, List.map_nil, hone, collect, Option.bind_some, Option.map_some, Bool.false_eq_true,
    flagText, at', find, List.find?, hv, beq_self_eq_true, id, asString, valToString, ht, List.flatten_cons, List.flatten_nil, List.append_nil]

/-- A request that fits C100 and C101. -/
def sampleAccept (f : FlagInfo) (t : Bytes) : Option Bytes := if f.type = ascii "int32" then (toI64 t).map intDec else some t

example : AcceptsByType sampleAccept ∧ DistinctNames sampleFlags ∧ Items sampleConv [(ascii "wal_ttl", .int 60), (ascii "nope", .bool true), (ascii "port", .str (ascii "x"))]
      [(ascii "wal_ttl", ascii "60"), (ascii "nope", ascii "1"), (ascii "port", ascii "x")] ∧
    Failed sampleAccept sampleFlags (ascii "nope") (ascii "1") ∧ Failed sampleAccept sampleFlags (ascii "port") (ascii "x") ∧
    ¬ Failed sampleAccept sampleFlags (ascii "wal_ttl") (ascii "60") ∧
    Reported sampleTexts toI64 sampleFlags (ascii "port") (.int 9779) ∧ Reported sampleTexts toI64 sampleFlags (ascii "nope") .null ∧
    AllPlain sampleDoubles sampleTexts toI64 sampleFlags := by
  refine ⟨fun f t t' b => rfl, by unfold DistinctNames; decide +kernel, ?_, by unfold Failed; decide +kernel, by unfold Failed; decide +kernel, by unfold Failed; decide +kernel, ?_, .unknown (by decide +kernel), ?_⟩
  · refine .cons ⟨rfl, ?_⟩ (.cons ⟨rfl, ?_⟩ (.cons ⟨rfl, ?_⟩ .nil)) <;> exact asString_iff.mp (by decide +kernel)
  · exact .flag (f := ⟨ascii "port", ascii "int32", ascii "9779", ascii "0", [], [], false⟩) (by decide +kernel) rfl
      (.int (lo := -2147483648) (hi := 2147483647) (by decide +kernel) (by decide +kernel) (by decide) (by decide) (by decide))
  · intro f hf v hv
    have hty : ∀ f ∈ sampleFlags, f.type ≠ ascii "double" := by decide +kernel
    rintro d rfl
    rcases hv with hv | hv <;> cases hv <;> exact absurd ‹f.type = ascii "double"› (hty f hf)

/-! ## C102: GET /stats, GET /status -/

theorem statText_value (C : Conv F) (read : Bytes → Except Bytes Int) (n : Bytes) : statText C (n, statValue read n) = some (statLine read n) := by
  unfold statText statValue statLine
  cases read n <;> simp [asString]

theorem getStats_named (read : Bytes → Except Bytes Int) (all : List (Bytes × Int)) (es : List Bytes) (hc : ∀ e ∈ es, (44 : UInt8) ∉ e) (hne : es.filter (· ≠ []) ≠ []) :
    getStats read all (splitNonEmpty 44 (join [44] es)) = (es.filter (· ≠ [])).map fun n => (n, statValue (F := F) read n) := by
  have he : es ≠ [] := by rintro rfl; exact hne rfl
  simp only [getStats, splitNonEmpty, splitAll_join 44 es he hc, if_neg hne]
  exact List.map_congr_left fun n _ => by unfold statValue; cases read n <;> rfl

/-- The names after `stats=` ask for all counters: the parameter is missing, or has no name between its commas. -/
def AsksAll (names : Option Bytes) : Prop := ∀ s ∈ names, ∃ es : List Bytes, s = join [44] es ∧ ∀ e ∈ es, e = []

theorem asksAll (D : Doubles F) (C : Conv F) (ord : List Bytes → List Bytes) (read : Bytes → Except Bytes Int) (all : List (Bytes × Int)) (format : Option Bytes)
    {names : Option Bytes} (hn : AsksAll names) : replyStats D C ord read all true format names = replyStats D C ord read all true format none := by
  cases names with
  | none => rfl
  | some s =>
    obtain ⟨es, rfl, he⟩ := hn s rfl
    have : splitNonEmpty 44 (join [44] es) = [] := by
      cases es with
      | nil => rfl
      | cons e es =>
        rw [splitNonEmpty, splitAll_join 44 _ (by simp) (fun e h => by rw [he e h]; simp)]
        simp only [List.filter_eq_nil_iff]
        intro a ha
        simp [he a ha]
    simp only [replyStats, this]

/-- C102: the plain answer has one line for every counter asked for, in the order of the request: its value, or why it has none. -/
theorem C102_text (D : Doubles F) (C : Conv F) (ord : List Bytes → List Bytes) (read : Bytes → Except Bytes Int) (all : List (Bytes × Int)) (es : List Bytes)
    (hc : ∀ e ∈ es, (44 : UInt8) ∉ e) (hne : es.filter (· ≠ []) ≠ []) (format : Option Bytes) (hj : format ≠ some (ascii "json")) :
    replyStats D C ord read all true format (some (join [44] es)) = some ⟨200, ((es.filter (· ≠ [])).map (statLine read)).flatten⟩ := by
  have h2 : (format == some (ascii "json")) = false := by simpa using hj
  have haux : ∀ l : List Bytes, collect ((l.map fun n => (n, statValue (F := F) read n)).map (statText C)) = some (l.map (statLine read)) := by
    intro l
    induction l with
    | nil => rfl
    | cons n l ih => rw [List.map_cons, List.map_cons, List.map_cons, collect, statText_value, ih]; rfl
  simp only [replyStats, Bool.true_eq_false, if_false, h2, Bool.false_eq_true, getStats_named read all es hc hne, haux, Option.map_some]

/-- C102: without names the plain answer has the lines of all counters. -/
theorem C102_all (D : Doubles F) (C : Conv F) (ord : List Bytes → List Bytes) (read : Bytes → Except Bytes Int) (all : List (Bytes × Int))
    (format : Option Bytes) (hj : format ≠ some (ascii "json")) (names : Option Bytes) (hn : AsksAll names) :
    replyStats D C ord read all true format names = some ⟨200, (all.map fun e => e.1 ++ ascii "=" ++ intDec e.2 ++ ascii "\n").flatten⟩ := by
  have h2 : (format == some (ascii "json")) = false := by simpa using hj
  have haux : ∀ l : List (Bytes × Int), collect ((l.map fun e => (e.1, (Dyn.int e.2 : Dyn F))).map (statText C)) = some (l.map fun e => e.1 ++ ascii "=" ++ intDec e.2 ++ ascii "\n") := by
    intro l
    induction l with
    | nil => rfl
    | cons n l ih => rw [List.map_cons, List.map_cons, List.map_cons, collect, ih]; rfl
  rw [asksAll D C ord read all format hn]
  simp only [replyStats, Bool.true_eq_false, if_false, h2, Bool.false_eq_true, getStats, if_pos, haux, Option.map_some]

theorem SameList.exact {l m : List (Dyn F)} (hl : ∀ a ∈ l, ∀ w, Same a w → w = a) (h : SameList l m) : m = l := by
  match l, m, h with
  | _, _, .nil => rfl
  | _, _, .cons ha hb => rw [hl _ (by simp) _ ha, SameList.exact (fun a ha => hl a (List.mem_cons_of_mem _ ha)) hb]

/-- A list of objects with one item, a number or a text, is read back. -/
theorem entries_json (D : Doubles F) {ord : List Bytes → List Bytes} (hord : ∀ l, (ord l).Perm l) (l : List (Bytes × Dyn F))
    (hl : ∀ e ∈ l, (∃ v, InI64 v ∧ e.2 = .int v) ∨ ∃ t, e.2 = .str t) :
    ∃ body, dump D ord (some 0) (.arr (l.map fun e => .obj [e])) = some body ∧ parse D body = some (.arr (l.map fun e => .obj [e])) := by
  have hval : ∀ e ∈ l, Fine D e.2 ∧ depth e.2 = 1 ∧ (∀ p, ∃ t, dump D ord p e.2 = some t) ∧ ∀ w, Same e.2 w → w = e.2 := by
    intro e he
    rcases hl e he with ⟨v, hv, hx⟩ | ⟨t, hx⟩ <;> rw [hx]
    · exact ⟨hv, rfl, fun p => ⟨_, rfl⟩, fun w hw => by cases hw; rfl⟩
    · exact ⟨trivial, rfl, fun p => ⟨_, rfl⟩, fun w hw => by cases hw; rfl⟩
  have haux : ∀ m : List (Bytes × Dyn F), (∀ e ∈ m, e ∈ l) → FineList D (m.map fun e => Dyn.obj [e]) ∧ depthList (m.map fun e => Dyn.obj [e]) ≤ 2 ∧
      ∀ p, ∃ es, dumpList D ord p (m.map fun e => Dyn.obj [e]) = some es := by
    intro m
    induction m with
    | nil => exact fun _ => ⟨trivial, by simp [depthList], fun p => ⟨[], rfl⟩⟩
    | cons n m ih =>
      intro hm
      have ih := ih fun e he => hm e (List.mem_cons_of_mem _ he)
      obtain ⟨h1, h2, h3, _⟩ := hval n (hm n (by simp))
      refine ⟨⟨by simp [Fine, FineEntries, h1], ih.1⟩, by simp [depthList, depth, depthEntries, h2]; have := ih.2.1; omega, fun p => ?_⟩
      obtain ⟨e, he⟩ := h3 (deeper p)
      obtain ⟨es, hes⟩ := ih.2.2 p
      rw [List.map_cons]
      simp [dumpList, dump, dumpEntries, he, hes]
  obtain ⟨hf, hdp, hdump⟩ := haux l fun _ h => h
  obtain ⟨pieces, hpc⟩ := hdump (deeper (some 0))
  have : ∃ body, dump D ord (some 0) (.arr (l.map fun e => Dyn.obj [e])) = some body := by simp only [dump, hpc, Option.map_some]; exact ⟨_, rfl⟩
  obtain ⟨body, hb⟩ := this
  obtain ⟨v, hv, hs⟩ := parse_dump D hord _ _ body (by simpa only [Fine] using hf) (by simp only [depth, maxDepth]; exact Nat.le_trans (Nat.succ_le_succ hdp) (by decide)) hb
  refine ⟨body, hb, ?_⟩
  rw [hv]
  cases hs with
  | arr hl =>
    rw [SameList.exact (fun a ha w hw => ?_) hl]
    obtain ⟨n, hn, rfl⟩ := List.mem_map.mp ha
    cases hw with
    | obj hpm hse =>
      rw [List.perm_comm] at hpm
      rw [List.perm_singleton.mp hpm] at hse
      cases hse with
      | cons hab ht => cases ht; rw [(hval _ hn).2.2.2 _ hab]

/-- C102: the JSON answer, read back, has one object for every counter asked for, in the order of the request. -/
theorem C102_json (D : Doubles F) (C : Conv F) {ord : List Bytes → List Bytes} (hord : ∀ l, (ord l).Perm l) (read : Bytes → Except Bytes Int) (all : List (Bytes × Int))
    (hr : ∀ n v, read n = .ok v → InI64 v) (es : List Bytes) (hc : ∀ e ∈ es, (44 : UInt8) ∉ e) (hne : es.filter (· ≠ []) ≠ []) :
    ∃ body, replyStats D C ord read all true (some (ascii "json")) (some (join [44] es)) = some ⟨200, body⟩ ∧
      parse D body = some (.arr ((es.filter (· ≠ [])).map fun n => .obj [(n, statValue read n)])) := by
  have h2 : (some (ascii "json") == some (ascii "json")) = true := by decide +kernel
  obtain ⟨body, hb, hp⟩ := entries_json D hord ((es.filter (· ≠ [])).map fun n => (n, statValue (F := F) read n)) (by
    intro e he
    obtain ⟨n, _, rfl⟩ := List.mem_map.mp he
    unfold statValue
    cases hrn : read n with
    | ok v => exact Or.inl ⟨v, hr n v hrn, rfl⟩
    | error t => exact Or.inr ⟨t, rfl⟩)
  refine ⟨body, ?_, ?_⟩
  · simp only [replyStats, Bool.true_eq_false, if_false, h2, if_pos, getStats_named read all es hc hne, hb, Option.map_some]
  · rw [hp, List.map_map]; rfl

/-- C102: without names the JSON answer, read back, has one object for every counter. -/
theorem C102_all_json (D : Doubles F) (C : Conv F) {ord : List Bytes → List Bytes} (hord : ∀ l, (ord l).Perm l) (read : Bytes → Except Bytes Int) (all : List (Bytes × Int))
    (ha : ∀ e ∈ all, InI64 e.2) (names : Option Bytes) (hn : AsksAll names) :
    ∃ body, replyStats D C ord read all true (some (ascii "json")) names = some ⟨200, body⟩ ∧
      parse D body = some (.arr (all.map fun e => .obj [(e.1, .int e.2)])) := by
  have h2 : (some (ascii "json") == some (ascii "json")) = true := by decide +kernel
  obtain ⟨body, hb, hp⟩ := entries_json D hord (all.map fun e => (e.1, Dyn.int (F := F) e.2)) (by
    intro e he
    obtain ⟨n, hn, rfl⟩ := List.mem_map.mp he
    exact Or.inl ⟨n.2, ha n hn, rfl⟩)
  refine ⟨body, ?_, ?_⟩
  · rw [asksAll D C ord read all _ hn]
    simp only [replyStats, Bool.true_eq_false, if_false, h2, if_pos, getStats, hb, Option.map_some]
  · rw [hp, List.map_map]; rfl

/-- C102: the status, read back, tells that the process runs and from which source it is built. -/
theorem C102_status (D : Doubles F) {ord : List Bytes → List Bytes} (hord : ∀ l, (ord l).Perm l) (sha : Bytes) :
    ∃ body v, replyStatus D ord true sha = some ⟨200, body⟩ ∧ parse D body = some v ∧
      Same (.obj [(ascii "status", .str (ascii "running")), (ascii "git_info_sha", .str sha)]) v := by
  have hk : ascii "status" ≠ ascii "git_info_sha" := by decide +kernel
  have : ∃ body, dump D ord none (.obj [(ascii "status", .str (ascii "running")), (ascii "git_info_sha", .str sha)]) = some body := by simp [dump, dumpEntries]
  obtain ⟨body, hb⟩ := this
  obtain ⟨v, hv, hs⟩ := parse_dump D hord _ _ body (by simp [Fine, FineEntries, hk]) (by simp [depth, depthEntries, maxDepth]) hb
  exact ⟨body, v, by simp [replyStatus, hb], hv, hs⟩

/-- C102: other methods are refused, and so are they by the other handlers. -/
theorem C102_method (D : Doubles F) (C : Conv F) (T : Texts F) (ord : List Bytes → List Bytes) (read : Bytes → Except Bytes Int) (all : List (Bytes × Int)) (f n : Option Bytes)
    (bigInt : Bytes → Option Int) (q : FlagQuery) (fs : List FlagInfo) (sha : Bytes) (it : List (Bytes × Dyn F) → List (Bytes × Dyn F)) (accept : FlagInfo → Bytes → Option Bytes)
    (body : Bytes) (l : List (Bytes × Dyn F)) (hp : parse D body = some (.obj l)) (hl : l ≠ []) :
    replyStats D C ord read all false f n = some ⟨405, []⟩ ∧ replyFlags D C T ord bigInt false q fs = some ⟨405, []⟩ ∧ replyStatus D ord false sha = some ⟨405, []⟩ ∧
    setFlags D C ord it accept false (some body) fs = some (⟨405, []⟩, fs) := by
  refine ⟨rfl, rfl, rfl, ?_⟩
  cases l with
  | nil => exact absurd rfl hl
  | cons e l => simp [setFlags, hp, isEmpty]

example : statLine (fun n => if n = ascii "q.sum.60" then .ok (-3) else .error (ascii "Stats not found \"x\"")) (ascii "q.sum.60") = ascii "q.sum.60=-3\n" ∧
    [ascii "q.sum.60", [], ascii "x"].filter (· ≠ []) = [ascii "q.sum.60", ascii "x"] := by decide +kernel

example : AsksAll none ∧ AsksAll (some (ascii ",,")) ∧ ¬ AsksAll (some (ascii ",a")) := by
  refine ⟨fun s h => by simp at h, fun s h => ⟨[[], [], []], by simp at h; rw [← h]; decide +kernel, by simp⟩, fun h => ?_⟩
  obtain ⟨es, he, ha⟩ := h _ rfl
  have hm : (97 : UInt8) ∈ join [44] es := by rw [← he]; decide +kernel
  have key : ∀ es : List Bytes, (∀ e ∈ es, e = []) → ∀ b ∈ join [44] es, b = 44 := by
    intro es
    induction es with
    | nil => simp [join]
    | cons e es ih =>
      intro h b hb
      cases es with
      | nil => simp [join, h e (by simp)] at hb
      | cons f es =>
        simp only [join, h e (by simp), List.nil_append, List.mem_append, List.mem_singleton] at hb
        rcases hb with hb | hb
        · exact hb
        · exact ih (fun e he => h e (List.mem_cons_of_mem _ he)) b hb
  exact absurd (key es ha _ hm) (by decide)

end Web
end Nebula
