import Verif.Expr.CodecProps
import Verif.Wire.ForwardProps
/-!
# C158: an expression that was received can be sent on

Any bytes that decode to an expression: can the expression be encoded again, and does the next reader get the same?
-/
namespace Nebula
namespace Expr
open Wire (BitsOk Fits Plain)

/-! ## What the statement needs -/

/-- The nodes that can be received but not sent on: a column; a generated id whose field is empty (UUIDExpression.cpp:28 ends the process); a range without any bound. -/
def FineHere : Expr → Prop
  | uuid f => f ≠ []
  | column _ => False
  | range _ lo hi => ¬(lo = none ∧ hi = none)
  | _ => True

/-- None of them is in the tree. -/
def Fine (e : Expr) : Prop := All FineHere e

/-! ## What the steps of the decoder give -/

/-- From an input of less than 4 GiB the step takes at least `c` bytes, and what it gives satisfies `P`. -/
def Gives {α : Type} (c : Nat) (P : α → Prop) (d : Dec α) : Prop := ∀ bs a r, bs.length < 2 ^ 32 → d bs = .ok a r → P a ∧ r.length + c ≤ bs.length

section
variable {α β : Type} {c c' : Nat} {P : α → Prop} {Q : β → Prop}

theorem Gives.pure {a : α} (h : P a) : Gives 0 P (Pure.pure a : Dec α) := by
  intro bs b r _ e; cases e; exact ⟨h, by omega⟩

theorem Gives.fail : Gives c P (Dec.fail : Dec α) := by intro bs b r _ e; cases e

theorem Gives.bind {d : Dec α} {k : α → Dec β} (h : Gives c P d) (hk : ∀ a, P a → Gives 0 Q (k a)) : Gives c Q (d >>= k) := by
  intro bs b r hl e
  change (match d bs with | .ok a r => k a r | .abort => .abort | .oob n => .oob n) = _ at e
  cases hd : d bs with
  | ok a r' =>
    rw [hd] at e
    obtain ⟨h1, h2⟩ := h bs a r' hl hd
    obtain ⟨h3, h4⟩ := hk a h1 r' b r (by omega) e
    exact ⟨h3, by omega⟩
  | abort => rw [hd] at e; cases e
  | oob m => rw [hd] at e; cases e

theorem Gives.weak {d : Dec α} (h : Gives c P d) (hc : c' ≤ c) : Gives c' P d := by
  intro bs a r hl e
  obtain ⟨h1, h2⟩ := h bs a r hl e
  exact ⟨h1, by omega⟩

theorem bind_ok {d : Dec α} {k : α → Dec β} {bs r : Bytes} {b : β} (e : (d >>= k) bs = .ok b r) : ∃ a r', d bs = .ok a r' ∧ k a r' = .ok b r := by
  change (match d bs with | .ok a r => k a r | .abort => .abort | .oob n => .oob n) = _ at e
  cases hd : d bs with
  | ok a r' => rw [hd] at e; exact ⟨a, r', rfl, e⟩
  | abort => rw [hd] at e; cases e
  | oob m => rw [hd] at e; cases e

theorem gives_many {d : Dec α} (h : Gives 1 P d) : ∀ k bs as r, bs.length < 2 ^ 32 → readMany d k bs = .ok as r →
    (∀ a ∈ as, P a) ∧ r.length + as.length ≤ bs.length
  | 0, bs, as, r, _, e => by cases e; simp
  | k + 1, bs, as, r, hl, e => by
    rw [readMany] at e
    obtain ⟨a, r1, hd, e⟩ := bind_ok e
    obtain ⟨as', r2, hm, e⟩ := bind_ok e
    obtain ⟨h1, h2⟩ := h bs a r1 hl hd
    cases e
    obtain ⟨h3, h4⟩ := gives_many h k r1 as' r (by omega) hm
    refine ⟨fun x hx => ?_, by simp only [List.length_cons]; omega⟩
    rcases List.mem_cons.mp hx with rfl | hx
    · exact h1
    · exact h3 x hx

theorem gives_many' {d : Dec α} (h : Gives 1 P d) (k : Nat) : Gives 0 (fun as : List α => (∀ a ∈ as, P a) ∧ as.length < 2 ^ 32) (readMany d k) := by
  intro bs as r hl e
  obtain ⟨h1, h2⟩ := gives_many h k bs as r hl e
  exact ⟨⟨h1, by omega⟩, by omega⟩

theorem gives_many32 {d : Dec α} (h : Gives 1 P d) (k : Nat) : Gives 0 (fun as : List α => (∀ a ∈ as, P a) ∧ as.length < 2 ^ 32) (readMany32 d k) :=
  fun bs as r hl e => gives_many' h _ bs as r hl e

theorem gives_stab {p n : Nat} {d d' : Dec α} (h : DStab p n d d') : Gives p (fun _ => True) d := by
  intro bs a r _ e
  obtain ⟨x, h1, h2, _⟩ := h bs a r e
  rw [h2, List.length_append]
  exact ⟨trivial, by omega⟩

theorem gives_opt {d : Dec α} (h : Gives c P d) (b : Bool) : Gives 0 (fun o : Option α => ∀ x ∈ o.toList, P x) (readOpt d b) := by
  cases b with
  | false => exact Gives.pure (by simp)
  | true => exact (h.weak (Nat.zero_le _)).bind fun a ha => Gives.pure (by simpa using ha)
end

theorem gives_str : Gives 8 (fun s : Bytes => s.length < 2 ^ 64) readStr := by
  intro bs s r hl e
  unfold readStr at e
  split at e
  · cases e
  · dsimp only at e
    split at e
    · cases e
      simp only [List.length_take, List.length_drop]
      constructor <;> omega
    · cases e

theorem gives_size : Gives 8 (fun k : Nat => k < 2 ^ 64) readSize := by
  intro bs k r hl e
  unfold readSize at e
  split at e
  · rename_i h8
    cases e
    refine ⟨?_, by simp only [List.length_drop]; omega⟩
    have key : ∀ l : Bytes, leVal l < 256 ^ l.length := by
      intro l
      induction l with
      | nil => simp [leVal]
      | cons b l ih =>
        have hb : b.toNat < 256 := b.toNat_lt
        rw [leVal, List.length_cons, Nat.pow_succ]; omega
    have := key (bs.take 8)
    rw [List.length_take, Nat.min_eq_left h8] at this
    exact Nat.lt_of_lt_of_le this (by decide)
  · cases e

theorem gives_optStr (b : Bool) : Gives 0 (fun s : Bytes => s.length < 2 ^ 64) (readOptStr b) := by
  cases b with
  | false => exact Gives.pure (by decide)
  | true => exact gives_str.weak (Nat.zero_le _)

theorem gives_val : Gives 0 Wire.Sane readVal := by
  intro bs v r hl e
  refine ⟨?_, (gives_stab (p := 0) (dstab_val 0) bs v r hl e).2⟩
  unfold readVal at e
  split at e
  · cases e
  · next hd => cases e; exact Wire.deserialize_sane hd

/-- Every node but the exceptions can be sent, variables are inner variables, and constants are as values are that were received. -/
def Ready (e : Expr) : Prop := All (fun x => (FineHere x → StorableHere x) ∧ (∀ n i, x = var n i → i = true) ∧ ∀ v, x = const v → Wire.Sane v) e

theorem ready {e : Expr} (h : FineHere e → StorableHere e) (hk : ∀ x ∈ e.children, Ready x) (hv : ∀ n i, e = var n i → i = true := by intro _ _ h; cases h <;> rfl)
    (hc : ∀ v, e = const v → Wire.Sane v := by intro _ h; cases h) : Ready e :=
  .mk ⟨h, hv, hc⟩ hk

theorem gives_reset {d : Dec Expr} (h : Gives 1 Ready d) (k : Kind) : Gives 0 Ready (resetFrom d k) := by
  have h0 : Gives 0 Ready d := h.weak (by omega)
  have hz : Gives 0 _ readSize := gives_size.weak (Nat.zero_le _)
  have hs : Gives 0 _ readStr := gives_str.weak (Nat.zero_le _)
  have hb : Gives 0 _ readBool := gives_stab (dstab_bool 0)
  have hv : Gives 0 _ readVal := gives_val
  have nil : ∀ {e : Expr}, e.children = [] → ∀ x ∈ e.children, Ready x := by intro e he x hx; rw [he] at hx; cases hx
  cases k with
  | const => exact hv.bind fun v hv => Gives.pure (ready (fun _ => Wire.sane_fits hv) (nil rfl) (by intro _ _ h; cases h) (by intro _ h; cases h; exact hv))
  | un o => exact h0.bind fun e he => Gives.pure (ready (fun _ => trivial) (by simpa [children] using he))
  | bin o => exact h0.bind fun l hl => h0.bind fun r hr => Gives.pure (ready (fun _ => trivial) (by simpa [children] using ⟨hl, hr⟩))
  | labelAttribute => exact Gives.fail
  | column =>
    refine hv.bind fun v _ => ?_
    cases v with
    | int i => exact Gives.pure (ready (fun h => h.elim) (nil rfl))
    | _ => exact Gives.fail
  | logical o => exact hz.bind fun m _ => (gives_many32 h m).bind fun es hes => Gives.pure (ready (fun _ => hes.2) hes.1)
  | cast => exact hz.bind fun t ht => h0.bind fun e he => Gives.pure (ready (fun _ => ht) (by simpa [children] using he))
  | call => exact hs.bind fun n hn => hz.bind fun m _ => (gives_many' h m).bind fun es hes =>
      Gives.pure (ready (fun _ => ⟨hn, Nat.lt_trans hes.2 (by decide)⟩) hes.1)
  | prop k =>
    simp only [resetFrom]
    split
    · exact Gives.fail
    · rename_i hk
      exact hs.bind fun r hr => hs.bind fun s hs' => hs.bind fun p hp => Gives.pure (ready (fun _ => ⟨fun e => hk (.inl e), fun e => hk (.inr e), hr, hs', hp⟩) (nil rfl))
  | vertex => exact Gives.pure (ready (fun _ => trivial) (nil rfl))
  | edge => exact Gives.pure (ready (fun _ => trivial) (nil rfl))
  | uuid => exact hs.bind fun f hf => Gives.pure (ready (fun h => ⟨h, hf⟩) (nil rfl))
  | var => exact hs.bind fun n hn => Gives.pure (ready (fun _ => hn) (nil rfl))
  | versionedVar => exact Gives.fail
  | coll k => exact hz.bind fun m _ => (gives_many32 h m).bind fun es hes => Gives.pure (ready (fun _ => hes.2) hes.1)
  | map =>
    have he : Gives 1 (fun kv : Bytes × Expr => kv.1.length < 2 ^ 64 ∧ Ready kv.2) (do let k ← readStr; return (k, ← d)) :=
      (gives_str.weak (by omega)).bind fun k hk => h0.bind fun e he => Gives.pure ⟨hk, he⟩
    exact hz.bind fun m _ => (gives_many32 he m).bind fun kvs hk => Gives.pure (ready (fun _ => ⟨hk.2, fun kv hkv => (hk.1 kv hkv).1⟩)
      (by intro x hx; obtain ⟨kv, h1, rfl⟩ := List.mem_map.mp hx; exact (hk.1 kv h1).2))
  | label => exact hs.bind fun n hn => Gives.pure (ready (fun _ => hn) (nil rfl))
  | case =>
    have he : Gives 1 (fun wt : Expr × Expr => Ready wt.1 ∧ Ready wt.2) (do let w ← d; return (w, ← d)) :=
      h.bind fun w hw => h0.bind fun t ht => Gives.pure ⟨hw, ht⟩
    refine hb.bind fun g _ => hb.bind fun bc _ => hb.bind fun bd _ => hz.bind fun m _ => (gives_opt h bc).bind fun c hc => (gives_opt h bd).bind fun df hd =>
      (gives_many32 he m).bind fun cs hcs => Gives.pure (ready (fun _ => hcs.2) ?_)
    intro x hx
    simp only [children, List.mem_append, List.mem_flatMap, List.mem_cons, List.not_mem_nil, or_false] at hx
    rcases hx with (hx | hx) | ⟨y, hy, rfl | rfl⟩
    · exact hc x hx
    · exact hd x hx
    · exact (hcs.1 y hy).1
    · exact (hcs.1 y hy).2
  | predicate =>
    refine hb.bind fun bi _ => hb.bind fun bf _ => hb.bind fun bo _ => hs.bind fun n hn => (gives_optStr bi).bind fun i hi => h0.bind fun c hc =>
      (gives_opt h bf).bind fun f hf => (gives_optStr bo).bind fun o ho => Gives.pure (ready (fun _ => ⟨hn, hi, ho⟩) ?_)
    intro x hx
    rcases List.mem_cons.mp hx with rfl | hx
    · exact hc
    · exact hf x hx
  | listComp =>
    refine hb.bind fun bf _ => hb.bind fun bm _ => hb.bind fun bo _ => hs.bind fun i hi => h0.bind fun c hc => (gives_opt h bf).bind fun f hf =>
      (gives_opt h bm).bind fun m hm => (gives_optStr bo).bind fun o ho => Gives.pure (ready (fun _ => ⟨hi, ho⟩) ?_)
    intro x hx
    rcases List.mem_cons.mp hx with rfl | hx
    · exact hc
    · rcases List.mem_append.mp hx with hx | hx
      · exact hf x hx
      · exact hm x hx
  | reduce =>
    refine hb.bind fun bo _ => hs.bind fun a ha => h0.bind fun i hi => hs.bind fun v hv => h0.bind fun c hc => h0.bind fun m hm =>
      (gives_optStr bo).bind fun o ho => Gives.pure (ready (fun _ => ⟨ha, hv, ho⟩) ?_)
    intro x hx
    simp only [children, List.mem_cons, List.not_mem_nil, or_false] at hx
    rcases hx with rfl | rfl | rfl <;> assumption
  | text _ => exact Gives.fail
  | aggregate => exact hs.bind fun n hn => hb.bind fun di _ => h0.bind fun a ha => Gives.pure (ready (fun _ => ⟨hn, by simp⟩) (by simpa [children] using ha))
  | range =>
    have both : ∀ {l : Expr} {lo hi : Option Expr}, Ready l → (∀ x ∈ lo.toList, Ready x) → (∀ x ∈ hi.toList, Ready x) → Ready (range l lo hi) := by
      intro l lo hi h1 h2 h3
      refine ready (fun h => h) fun x hx => ?_
      rcases List.mem_cons.mp hx with rfl | hx
      · exact h1
      · rcases List.mem_append.mp hx with hx | hx
        · exact h2 x hx
        · exact h3 x hx
    refine h0.bind fun l hl => hz.bind fun size _ => hz.bind fun index _ => ?_
    split
    · exact h0.bind fun e he => Gives.pure (both hl (by simp) (by simpa using he))
    · refine (gives_opt h _).bind fun lo hlo => ?_
      split
      · exact hz.bind fun _ _ => h0.bind fun e he => Gives.pure (both hl hlo (by simpa using he))
      · exact Gives.pure (both hl hlo (by simp))

theorem gives_decodeF : ∀ f, Gives 1 Ready (decodeF f)
  | 0 => Gives.fail
  | f + 1 => by
    rw [decodeF]
    refine (gives_stab (dstab_kind 0)).bind fun k _ => ?_
    cases kinds[k]? with
    | none => exact Gives.fail
    | some k => exact gives_reset (gives_decodeF f) k

theorem all_and {P Q : Expr → Prop} {e : Expr} (h : All (fun x => P x → Q x) e) : All P e → All Q e := by
  induction e using children_induction with
  | h e ih => exact fun hp => .mk (h.here hp.here) fun x hx => ih x hx (h.kids x hx) (hp.kids x hx)

theorem decoded_ready {bs : Bytes} {e : Expr} {r : Bytes} (hl : bs.length < 2 ^ 32) (h : decode bs = .ok (some e) r) : Ready e := by
  unfold decode at h
  split at h
  · cases h
  · cases hd : decodeF bs.length bs with
    | abort => rw [hd] at h; cases h
    | oob n => rw [hd] at h; cases h
    | ok x r' => rw [hd] at h; cases h; exact (gives_decodeF _ bs e r hl hd).1

/-! ## The theorems -/

/-- **C158.** Whatever bytes an expression was decoded from, well formed or not: if it has none of the exceptions it can be encoded, and from the encoding, whatever follows it, the next
host gets the expression with its constants as the wire format delivers them. -/
theorem C158_forward_partial {bits : F64 → Nat} (hb : BitsOk bits) {bs r : Bytes} {e : Expr} (hl : bs.length < 2 ^ 32) (h : decode bs = .ok (some e) r) (hf : Fine e) :
    ∃ b, encode bits e = some b ∧ ∀ rest, decode (b ++ rest) = .ok (some (received e)) rest :=
  C36_received hb e (all_and ((decoded_ready hl h).imp fun _ hx => hx.1) hf)

/-- **C158.** If the edges and steps in its constants have directions (-1, 0, 1) for types, the next host gets the very expression, and so does every host after it. -/
theorem C158_same_partial {bits : F64 → Nat} (hb : BitsOk bits) {bs r : Bytes} {e : Expr} (hl : bs.length < 2 ^ 32) (h : decode bs = .ok (some e) r) (hf : Fine e)
    (hp : All (fun x => ∀ v, x = const v → Value.Hered Wire.DirHere v) e) : ∃ b, encode bits e = some b ∧ ∀ rest, decode (b ++ rest) = .ok (some e) rest := by
  have hr := decoded_ready hl h
  refine C36_round_trip_partial hb e (all_and (hr.imp fun _ hx => hx.1) hf) (all_and (P := fun x => ∀ v, x = const v → Value.Hered Wire.DirHere v) (hr.imp fun x hx hc => ?_) hp)
  cases x with
  | const v => exact Wire.sane_plain (hx.2.2 v rfl) (hc v rfl)
  | var n i => exact hx.2.1 n i rfl
  | _ => trivial

theorem received_kids (e : Expr) : (received e).children = e.children.map received := by
  cases e <;> simp only [received, children, receivedAll_eq, receivedEntries_eq, receivedCases_eq, receivedOpt_eq, List.map_map, List.map_cons, List.map_nil, List.map_append,
    List.map_flatMap, List.flatMap_map, Option.toList_map] <;> rfl

theorem received_unchanged {e : Expr} (h : Storable e) : Storable (received e) ∧ Unchanged (received e) := by
  induction e using children_induction with
  | h e ih =>
    have hk : ∀ x ∈ (received e).children, Storable x ∧ Unchanged x := by
      intro x hx
      rw [received_kids] at hx
      obtain ⟨y, hy, rfl⟩ := List.mem_map.1 hx
      exact ih y hy (h.kids y hy)
    have hh := h.here
    refine ⟨.mk ?_ fun x hx => (hk x hx).1, .mk ?_ fun x hx => (hk x hx).2⟩
    · obtain ⟨bits, hb⟩ := Wire.bitsOk_exists
      cases e <;> simp only [received, StorableHere, receivedAll_eq, receivedEntries_eq, receivedCases_eq, receivedOpt_eq, List.length_map, Option.map_eq_none_iff] at hh ⊢ <;>
        first
        | exact hh
        | exact Wire.C159_fits (Wire.C67_image hb _ hh [])
        | (refine ⟨hh.1, fun kv hkv => ?_⟩; obtain ⟨y, hy, rfl⟩ := List.mem_map.1 hkv; exact hh.2 y hy)
        | simpa using hh
    · cases e <;> first
        | trivial
        | (obtain ⟨bits, hb⟩ := Wire.bitsOk_exists
           exact Wire.sane_plain (Wire.deserialize_sane (Wire.C67_image hb _ hh [])) (Wire.image_dir _))
        | rfl

/-- **C158 (from the second host on).** Whatever expression was sent, every host after the first receives what the first did. -/
theorem C158_hops {bits : F64 → Nat} (hb : BitsOk bits) (e : Expr) (he : Storable e) :
    ∃ b, encode bits (received e) = some b ∧ ∀ rest, decode (b ++ rest) = .ok (some (received e)) rest :=
  C36_round_trip_partial hb _ (received_unchanged he).1 (received_unchanged he).2

/-- **C158 (from the second host on).** The same for an expression that was received from whatever bytes. -/
theorem C158_stable_partial {bits : F64 → Nat} (hb : BitsOk bits) {bs r : Bytes} {e : Expr} (hl : bs.length < 2 ^ 32) (h : decode bs = .ok (some e) r) (hf : Fine e) :
    ∃ b, encode bits (received e) = some b ∧ ∀ rest, decode (b ++ rest) = .ok (some (received e)) rest :=
  C158_hops hb e (all_and ((decoded_ready hl h).imp fun _ hx => hx.1) hf)

/-- An input that is no encoding, as a range announces five bounds: it is received, and the expression can be sent on. -/
example (bits : F64 → Nat) : ∃ bs, decode bs = .ok (some (.range .vertex (some .edge) none)) [] ∧ (∀ e, encode bits e = some bs → e ≠ .range .vertex (some .edge) none) ∧
    Fine (.range .vertex (some .edge) none) ∧ All (fun x => ∀ v, x = const v → Value.Hered Wire.DirHere v) (.range .vertex (some .edge) none) := by
  refine ⟨[68, 45] ++ putSize 5 ++ putSize 0 ++ [46], by rfl, ?_, ?_, ?_⟩
  · rintro e h rfl
    exact absurd (Option.some.inj h) (by simp only [writeTo, writeBound]; decide +kernel)
  · refine .mk (by simp [FineHere]) fun x hx => ?_
    simp only [children, Option.toList, List.mem_cons, List.append_nil, List.not_mem_nil, or_false] at hx
    rcases hx with rfl | rfl <;> exact .mk trivial (by simp [children])
  · refine .mk (by intro v h; cases h) fun x hx => ?_
    simp only [children, Option.toList, List.mem_cons, List.append_nil, List.not_mem_nil, or_false] at hx
    rcases hx with rfl | rfl <;> exact .mk (by intro v h; cases h) (by simp [children])

/-! ## The exceptions -/

/-- **C158, violated.** Bytes that decode to a generated id with an empty field: the host that has received them ends when it sends them on. -/
theorem C158_uuid_violated (bits : F64 → Nat) : ∃ bs, decode bs = .ok (some (.uuid [])) [] ∧ encode bits (.uuid []) = none :=
  ⟨[UInt8.ofNat (kindNum .uuid)] ++ putSize 0, by rfl, by rfl⟩

/-- **C158, violated.** Bytes that decode to a range without bounds, and are sent on as bytes that make the next host read behind their end. -/
theorem C158_range_violated (bits : F64 → Nat) : ∃ bs b, decode bs = .ok (some (.range .vertex none none)) [] ∧ encode bits (.range .vertex none none) = some b ∧ decode b = .oob 8 :=
  ⟨[UInt8.ofNat (kindNum .range), UInt8.ofNat (kindNum .vertex)] ++ putSize 1 ++ putSize 2, _, by rfl, rfl, by rfl⟩

/-- **C158, violated.** A column that was received is sent on as bytes that end the next host. -/
theorem C158_column_violated (bits : F64 → Nat) : ∃ bs b, decode bs = .ok (some (.column 0)) [] ∧ encode bits (.column 0) = some b ∧ decode b = .abort := by
  have key : ∀ x : Res (Option Expr), (match x with | .ok (some (.column i)) [] => i == 0 | _ => false) = true → x = .ok (some (.column 0)) [] := by
    intro x h
    split at h
    · rw [eq_of_beq h]
    · cases h
  exact ⟨[29, 54, 0, 0], _, key _ (by decide +kernel), rfl, by rfl⟩

end Expr
end Nebula
