import Verif.Wire.ResponseSpec
import Verif.Wire.TruncProps
/-! # Structures with optional fields: helper lemmas -/
namespace Nebula
namespace Wire

theorem withExtra_nil : ∀ (fs : List (Nat × Nat × Option Bytes)) (last : Nat), withExtra [] last fs = writeFields last fs
  | [], _ => rfl
  | (_, _, none) :: fs, last => by rw [withExtra, writeFields, withExtra_nil fs]
  | (id, _, some _) :: fs, last => by rw [withExtra, writeFields, withExtra_nil fs]

theorem withExtra_len (ex : List (Nat × Datum)) : ∀ (fs : List (Nat × Nat × Option Bytes)) (last : Nat), 1 ≤ (withExtra ex last fs).length
  | [], _ => by simp [withExtra]
  | (_, _, none) :: fs, last => by rw [withExtra]; exact withExtra_len ex fs last
  | (id, _, some _) :: fs, last => by rw [withExtra]; simp; have := withExtra_len ex fs id; omega

/-- A field with what reading it does. -/
structure Fld (σ : Type) where
  id : Nat
  ct : Nat
  body : Option Bytes
  eff : σ → σ

def Fld.wire {σ : Type} (f : Fld σ) : Nat × Nat × Option Bytes := (f.id, f.ct, f.body)

/-- The fields that are present, one after the other. -/
def final {σ : Type} (s : σ) : List (Fld σ) → σ
  | [] => s
  | f :: fs => match f.body with
    | none => final s fs
    | some _ => final (f.eff s) fs

section
variable {σ : Type} (R : Reader σ)

/-- The reader knows the field. -/
structure Good (f : Fld σ) : Prop where
  le : f.id ≤ 15
  pos : 0 < f.ct
  lt : f.ct < 16
  reads : ∀ b, f.body = some b → ∃ g, R.label f.id = some (f.ct, g) ∧ ∀ s rest, g s (b ++ rest) = some (f.eff s, rest)

/-- The expectations of the reader are about fields it knows. -/
structure NextOk : Prop where
  next : ∀ curr x, R.next curr = some x → curr < x.1 ∧ 0 < x.2 ∧ x.2 < 16 ∧ ∃ g, R.label x.1 = some (x.2, g)

variable {R}

theorem run_known {f last id ct : Nat} {g : σ → Bytes → Option (σ × Bytes)} {s s' : σ} {body rest : Bytes}
    (hR : NextOk R) (h1 : last < id) (h2 : id ≤ 15) (h3 : 0 < ct) (h4 : ct < 16)
    (hl : R.label id = some (ct, g)) (hg : g s (body ++ rest) = some (s', rest)) :
    R.run (f + 1) true last s (fieldHeader last id ct ++ (body ++ rest)) = R.run f true id s' rest := by
  cases hn : R.next last with
  | none =>
    rw [Reader.run]
    have : R.advance last (fieldHeader last id ct ++ (body ++ rest)) = none := by
      rw [fieldHeader_eq h1 (by omega), List.cons_append, List.nil_append]
      simp only [Reader.advance, hn]
      rw [if_neg]
      rw [ofNat_toNat (by omega)]; omega
    simp only [if_true, this, readFieldHeader_write h1 (by omega : id - last ≤ 15) h3 h4, hl, hg]
  | some x =>
    obtain ⟨nid, nct⟩ := x
    obtain ⟨a1, a2, a3, _⟩ := hR.next _ _ hn
    simp only at a1 a2 a3
    by_cases he : nid = id ∧ nct = ct
    · obtain ⟨rfl, rfl⟩ := he
      exact run_field R hn h1 (by omega) h4 hl hg
    · refine run_field_slow R hn ?_ h1 (by omega) h3 h4 hl hg
      simp only
      intro hc
      apply he
      constructor <;> omega

/-- Unknown fields at the end, whatever was expected. -/
theorem run_tail {s : σ} {rest : Bytes} (hR : NextOk R) (ex : List (Nat × Datum)) (f last : Nat)
    (hl : ∀ d ∈ ex, R.label (d.1 : Int) = none) (hw : wfF ex) (hf : (encF last ex).length < f) :
    R.run f true last s (encF last ex ++ ([0] ++ rest)) = some (s, rest) := by
  cases hn : R.next last with
  | none => exact run_extra R ex f last hn hl hw hf
  | some x =>
    obtain ⟨nid, nct⟩ := x
    obtain ⟨a1, a2, a3, g, hg⟩ := hR.next _ _ hn
    simp only at a1 a2 a3 hg
    cases ex with
    | nil =>
      obtain ⟨f, rfl⟩ : ∃ g, f = g + 1 := ⟨f - 1, by omega⟩
      exact run_stop_slow R hn (by simp only; omega)
    | cons d ex =>
      obtain ⟨id, d⟩ := d
      have key := run_extra_slow (s := s) (rest := rest) R ((id, d) :: ex) f last hl hw hf
      obtain ⟨f, rfl⟩ : ∃ g, f = g + 1 := ⟨f - 1, by omega⟩
      rw [← key, Reader.run, Reader.run]
      have hh := hl (id, d) List.mem_cons_self
      have hlt := d.ct_lt
      have hne : ((id : Nat) : Int) ≠ nid := by
        intro hc; simp only at hh; rw [hc, hg] at hh; cases hh
      have : R.advance last (encF last ((id, d) :: ex) ++ ([0] ++ rest)) = none := by
        rw [encF, fieldHeader]
        split
        · next h =>
          simp only [List.cons_append, List.nil_append, Reader.advance, hn]
          rw [if_neg]
          rw [ofNat_toNat (by omega)]
          intro hc
          apply hne
          omega
        · simp only [List.cons_append, Reader.advance, hn]
          rw [if_neg]
          rw [ofNat_toNat (by omega)]
          omega
      simp only [if_true, this, Bool.false_eq_true, if_false]

theorem run_fields (hR : NextOk R) (ex : List (Nat × Datum)) (hl : ∀ d ∈ ex, R.label (d.1 : Int) = none) (hw : wfF ex)
    (rest : Bytes) : ∀ (fs : List (Fld σ)) (f last : Nat) (s : σ), (∀ x ∈ fs, Good R x) → (∀ x ∈ fs, last < x.id) →
      fs.Pairwise (fun x y => x.id < y.id) → (withExtra ex last (fs.map Fld.wire)).length ≤ f →
      R.run f true last s (withExtra ex last (fs.map Fld.wire) ++ rest) = some (final s fs, rest)
  | [], f, last, s, _, _, _, hf => by
    simp only [List.map_nil, withExtra, List.length_append, List.length_singleton] at hf
    simp only [List.map_nil, withExtra, final, List.append_assoc]
    exact run_tail hR ex f last hl hw (by omega)
  | ⟨id, ct, none, e⟩ :: fs, f, last, s, hg, hlt, hp, hf => by
    simp only [List.map_cons, Fld.wire, withExtra, final] at hf ⊢
    exact run_fields hR ex hl hw rest fs f last s (fun x hx => hg x (List.mem_cons_of_mem _ hx))
      (fun x hx => hlt x (List.mem_cons_of_mem _ hx)) (List.pairwise_cons.1 hp).2 hf
  | ⟨id, ct, some b, e⟩ :: fs, f, last, s, hg, hlt, hp, hf => by
    have g0 := hg _ List.mem_cons_self
    have l0 := hlt _ List.mem_cons_self
    obtain ⟨g, hl1, hr1⟩ := g0.reads b rfl
    have h1 := g0.le; have h2 := g0.pos; have h3 := g0.lt
    simp only at l0 h1 h2 h3 hl1 hr1
    have hh := fieldHeader_len last id ct
    simp only [List.map_cons, Fld.wire, withExtra, final, List.length_append, List.append_assoc] at hf ⊢
    obtain ⟨f, rfl⟩ : ∃ g, f = g + 1 := ⟨f - 1, by omega⟩
    rw [run_known hR l0 h1 h2 h3 hl1 (hr1 s _)]
    refine run_fields hR ex hl hw rest fs f id (e s) (fun x hx => hg x (List.mem_cons_of_mem _ hx))
      (fun x hx => (List.pairwise_cons.1 hp).1 x hx) (List.pairwise_cons.1 hp).2 ?_
    omega

theorem read_fields (hR : NextOk R) (fs : List (Fld σ)) (ex : List (Nat × Datum)) (hl : ∀ d ∈ ex, R.label (d.1 : Int) = none) (hw : wfF ex)
    (hg : ∀ x ∈ fs, Good R x) (h0 : ∀ x ∈ fs, 0 < x.id) (hp : fs.Pairwise (fun x y => x.id < y.id)) (s : σ) (rest : Bytes) :
    R.read s (withExtra ex 0 (fs.map Fld.wire) ++ rest) = some (final s fs, rest) := by
  rw [Reader.read]
  exact run_fields hR ex hl hw rest fs _ 0 s hg h0 hp (by simp; omega)
end

/-! ## Structures with required fields -/

section
variable {σ : Type} {R : Reader (σ × List Nat)}

/-- A field read by `fld`. -/
def mkFld {α : Type} (id ct : Nat) (w : α → Bytes) (x : Option α) (img : α → α) (set : σ → α → σ) : Fld (σ × List Nat) where
  id := id
  ct := ct
  body := x.map w
  eff s := match x with
    | none => s
    | some a => (set s.1 (img a), id :: s.2)

theorem mkFld_good {α : Type} {id ct : Nat} {w : α → Bytes} {x : Option α} {img : α → α} {set : σ → α → σ}
    {rd : Bytes → Option (α × Bytes)} (h1 : id ≤ 15) (h2 : 0 < ct) (h3 : ct < 16) (hl : R.label id = some (ct, fld id rd set))
    (h : ∀ a, x = some a → ∀ rest, rd (w a ++ rest) = some (img a, rest)) : Good R (mkFld id ct w x img set) where
  le := h1
  pos := h2
  lt := h3
  reads b hb := by
    refine ⟨_, hl, fun s rest => ?_⟩
    cases x with
    | none => cases hb
    | some a =>
      injection hb with hb
      subst hb
      exact block_eq (h a rfl rest)

/-- What `isset` says at the end. -/
theorem final_seen {i : Nat} : ∀ (fs : List (Fld (σ × List Nat))) (s : σ × List Nat),
    (∀ f ∈ fs, ∀ s, ∀ j ∈ (f.eff s).2, j = f.id ∨ j ∈ s.2) → (∀ f ∈ fs, f.id ≠ i) → i ∉ s.2 → i ∉ (final s fs).2
  | [], s, _, _, h => h
  | ⟨id, ct, none, e⟩ :: fs, s, he, hi, h => by
    rw [final]
    exact final_seen fs s (fun f hf => he f (List.mem_cons_of_mem _ hf)) (fun f hf => hi f (List.mem_cons_of_mem _ hf)) h
  | ⟨id, ct, some b, e⟩ :: fs, s, he, hi, h => by
    rw [final]
    refine final_seen fs (e s) (fun f hf => he f (List.mem_cons_of_mem _ hf)) (fun f hf => hi f (List.mem_cons_of_mem _ hf)) ?_
    intro hc
    rcases he _ List.mem_cons_self s i hc with h' | h'
    · exact hi _ List.mem_cons_self h'.symm
    · exact h h'

theorem mkFld_seen {α : Type} {id ct : Nat} {w : α → Bytes} {x : Option α} {img : α → α} {set : σ → α → σ} (s : σ × List Nat) :
    ∀ j ∈ ((mkFld id ct w x img set).eff s).2, j = (mkFld id ct w x img set).id ∨ j ∈ s.2 := by
  intro j hj
  cases x with
  | none => exact .inr hj
  | some a => simpa [mkFld] using hj

/-- Everything about one structure. -/
structure Known (R : Reader (σ × List Nat)) (fs : List (Fld (σ × List Nat))) : Prop where
  next : NextOk R
  good : ∀ x ∈ fs, Good R x
  pos : ∀ x ∈ fs, 0 < x.id
  sorted : fs.Pairwise (fun x y => x.id < y.id)
  seen : ∀ f ∈ fs, ∀ s, ∀ j ∈ (f.eff s).2, j = f.id ∨ j ∈ s.2

theorem Known.read {fs : List (Fld (σ × List Nat))} (h : Known R fs) {req : List Nat} {o x : σ} (ex : List (Nat × Datum))
    (hl : ∀ d ∈ ex, R.label (d.1 : Int) = none) (hw : wfF ex) (hx : (final (o, []) fs).1 = x)
    (hr : ∀ i ∈ req, i ∈ (final (o, []) fs).2) (rest : Bytes) :
    readStruct R req o (withExtra ex 0 (fs.map Fld.wire) ++ rest) = some (x, rest) := by
  rw [readStruct, read_fields h.next fs ex hl hw h.good h.pos h.sorted]
  simp only
  rw [if_pos (by simpa using hr), hx]

/-- Without a required field. -/
theorem Known.missing {fs : List (Fld (σ × List Nat))} (h : Known R fs) {req : List Nat} {i : Nat} (hi : i ∈ req) (o : σ) (rest : Bytes) :
    readStruct R req o (writeFields 0 ((fs.map Fld.wire).filter fun f => f.1 ≠ i) ++ rest) = none := by
  have e : (fs.map Fld.wire).filter (fun f => f.1 ≠ i) = (fs.filter fun f => f.id ≠ i).map Fld.wire := by
    rw [List.filter_map]; rfl
  rw [readStruct, e, ← withExtra_nil, read_fields h.next _ [] (by simp) (by simp [wfF]) (fun x hx => h.good x ((List.mem_filter.1 hx).1))
    (fun x hx => h.pos x ((List.mem_filter.1 hx).1)) (h.sorted.sublist List.filter_sublist)]
  simp only
  rw [if_neg]
  intro hc
  have := List.all_eq_true.1 hc i hi
  refine final_seen (fs.filter fun f => f.id ≠ i) (o, []) (fun x hx => h.seen x ((List.mem_filter.1 hx).1)) ?_ (by simp) (by simpa using this)
  intro f hf
  simpa using (List.mem_filter.1 hf).2
end

theorem setEntry_new {K V : Type} [BEq K] [LawfulBEq K] {m : List (K × V)} {k : K} {v : V} (h : k ∉ m.map Prod.fst) : setEntry m k v = m ++ [(k, v)] := by
  unfold setEntry
  rw [if_neg]
  simp only [List.any_eq_true, not_exists, not_and]
  intro kv hkv he
  exact h (List.mem_map.2 ⟨kv, hkv, by simpa using he⟩)

theorem foldl_setEntry {K V : Type} [BEq K] [LawfulBEq K] : ∀ (l m : List (K × V)), ((m ++ l).map Prod.fst).Nodup →
    l.foldl (fun m kv => setEntry m kv.1 kv.2) m = m ++ l
  | [], m, _ => by simp
  | (k, v) :: l, m, h => by
    have hk : k ∉ m.map Prod.fst := by
      intro hc
      rw [List.map_append, List.nodup_append] at h
      exact h.2.2 k hc k (by simp) rfl
    rw [List.foldl_cons, setEntry_new hk, foldl_setEntry l (m ++ [(k, v)]) (by simpa using h)]
    simp

theorem readMap_write {K V : Type} [BEq K] [LawfulBEq K] {rk : Bytes → Option (K × Bytes)} {rv : Bytes → Option (V × Bytes)} {wk : K → Bytes}
    {wv : V → Bytes} {kt vt : Nat} {m : List (K × V)} (h1 : Small m.length) (h2 : (m.map Prod.fst).Nodup) (ht : kt < 16) (hv : vt < 16)
    (h : ∀ kv ∈ m, (∀ r, rk (wk kv.1 ++ r) = some (kv.1, r)) ∧ ∀ r, rv (wv kv.2 ++ r) = some (kv.2, r)) (rest : Bytes) :
    readMap rk rv kt vt (writeMap wk wv kt vt m ++ rest) = some (m, rest) := by
  rw [readMap, writeMap, List.append_assoc]
  by_cases h0 : m.length = 0
  · have : m = [] := List.length_eq_zero_iff.1 h0
    subst this
    simp [readMapHeader_zero]
  · rw [readMapHeader_write h1 h0 ht hv]
    simp only [h0, if_false, and_self, if_true]
    rw [readN_write _ _ id m rest]
    · simp only
      rw [foldl_setEntry]
      · simp
      · simpa using h2
    · intro kv hkv r
      simp only [List.append_assoc]
      rw [(h kv hkv).1]
      simp only
      rw [(h kv hkv).2]
      rfl

end Wire
end Nebula
