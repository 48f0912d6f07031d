import Verif.Expr.CodecLemmas
import Verif.Wire.Stable
/-! # Lemmas: which bytes the expression decoder looks at -/
namespace Nebula
namespace Expr

/-- If `d` succeeds, it consumes at least `p` bytes from the front, and `d'` reads them — if they are
fewer than `n` — in the same way whatever follows.  (Compare `Wire.Stab`.) -/
def DStab {α : Type} (p n : Nat) (d d' : Dec α) : Prop :=
  ∀ bs a r, d bs = .ok a r → ∃ c, p ≤ c.length ∧ bs = c ++ r ∧ (c.length < n → ∀ s, d' (c ++ s) = .ok a s)

section
variable {α β : Type} {p q n : Nat}

theorem DStab.mono {p' n' : Nat} {d d' : Dec α} (h : DStab p n d d') (hp : p' ≤ p) (hn : n' ≤ n) : DStab p' n' d d' := by
  intro bs a r e
  obtain ⟨c, h0, hc, hs⟩ := h bs a r e
  exact ⟨c, by omega, hc, fun hl => hs (by omega)⟩

theorem DStab.zero {e d d' : Dec α} (h : DStab p n d d') : DStab p 0 d e := by
  intro bs a r e
  obtain ⟨c, h0, hc, hs⟩ := h bs a r e
  exact ⟨c, h0, hc, fun hl => by omega⟩

theorem DStab.pure (a : α) : DStab 0 n (Pure.pure a : Dec α) (Pure.pure a) := by
  rintro bs b r h; cases h; exact ⟨[], by simp, rfl, fun _ _ => rfl⟩

theorem DStab.fail {d' : Dec α} : DStab p n (Dec.fail : Dec α) d' := by
  rintro bs b r h; cases h

/-- The second step need only be stable for what the first one leaves of the bound. -/
theorem DStab.bindP {d d' : Dec α} {k k' : α → Dec β} (h : DStab p n d d') (hk : ∀ a, DStab q (n - p) (k a) (k' a)) :
    DStab (p + q) n (d >>= k) (d' >>= k') := by
  intro bs b r e
  change (match d bs with | .ok a r => k a r | .abort => .abort | .oob n => .oob n) = _ at e
  cases hd : d bs with
  | abort => rw [hd] at e; cases e
  | oob _ => rw [hd] at e; cases e
  | ok a r1 =>
    rw [hd] at e
    obtain ⟨c1, l1, rfl, h1⟩ := h bs a r1 hd
    obtain ⟨c2, l2, rfl, h2⟩ := hk a r1 b r e
    refine ⟨c1 ++ c2, by simp; omega, by simp, fun hl s => ?_⟩
    rw [List.length_append] at hl
    show (match d' (c1 ++ c2 ++ s) with | .ok a r => k' a r | .abort => .abort | .oob n => .oob n) = _
    rw [List.append_assoc, h1 (by omega)]
    exact h2 (by omega) s

theorem DStab.bind {d d' : Dec α} {k k' : α → Dec β} (h : DStab p n d d') (hk : ∀ a, DStab 0 n (k a) (k' a)) :
    DStab p n (d >>= k) (d' >>= k') := h.bindP (q := 0) fun a => (hk a).mono (Nat.le_refl _) (by omega)

theorem DStab.bind0 {d d' : Dec α} {k k' : α → Dec β} (h : DStab p n d d') (hk : ∀ a, DStab q n (k a) (k' a)) :
    DStab q n (d >>= k) (d' >>= k') :=
  ((h.mono (p' := 0) (by omega) (Nat.le_refl _)).bindP hk).mono (by omega) (Nat.le_refl _)

theorem dstab_many {d d' : Dec α} (h : DStab 0 n d d') : ∀ k, DStab 0 n (readMany d k) (readMany d' k)
  | 0 => DStab.pure _
  | k + 1 => h.bind fun _ => (dstab_many h k).bind fun _ => DStab.pure _

/-- Elements that are not empty use up the input. -/
theorem many_len {d d' : Dec α} (h : DStab 1 n d d') : ∀ k bs as r, readMany d k bs = .ok as r → k ≤ bs.length
  | 0, _, _, _, _ => Nat.zero_le _
  | k + 1, bs, as, r, e => by
    change (match d bs with | .ok a r => (readMany d k >>= fun as => Pure.pure (a :: as) : Dec _) r | .abort => .abort | .oob n => .oob n) = _ at e
    cases hd : d bs with
    | abort => rw [hd] at e; cases e
    | oob _ => rw [hd] at e; cases e
    | ok a r1 =>
      rw [hd] at e
      obtain ⟨c, hc, rfl, _⟩ := h bs a r1 hd
      replace e : (readMany d k >>= fun as => Pure.pure (a :: as) : Dec _) r1 = .ok as r := e
      replace e : Dec.andThen (readMany d k) (fun as => Pure.pure (a :: as)) r1 = .ok as r := e
      unfold Dec.andThen at e
      cases hm : readMany d k r1 with
      | abort => rw [hm] at e; cases e
      | oob _ => rw [hm] at e; cases e
      | ok as' r' =>
        have := many_len h k r1 as' r' hm
        simp; omega

theorem dstab_many32 {d d' : Dec α} (h : DStab 1 n d d') (k : Nat) : DStab 0 n (readMany32 d k) (readMany32 d' k) := by
  intro bs as r e
  unfold readMany32 at e
  split at e
  · next hk =>
    obtain ⟨c, h0, hc, hs⟩ := dstab_many (h.mono (p' := 0) (by omega) (Nat.le_refl _)) k bs as r e
    refine ⟨c, h0, hc, fun hl s => ?_⟩
    rw [readMany32, if_pos hk]; exact hs hl s
  · have := many_len h _ bs as r e
    omega
end

theorem dstab_kind (n : Nat) : DStab 1 n readKind readKind := by
  rintro bs a r h
  cases bs with
  | nil => cases h
  | cons b bs => cases h; exact ⟨[b], by simp, rfl, fun _ _ => rfl⟩

theorem dstab_size (n : Nat) : DStab 8 n readSize readSize := by
  rintro bs a r h
  unfold readSize at h
  split at h
  · next hb =>
    cases h
    have hl : (bs.take 8).length = 8 := by simp; omega
    refine ⟨bs.take 8, by omega, by simp, fun _ s => ?_⟩
    rw [readSize, if_pos (by simp; omega), List.take_left' hl, List.drop_left' hl]
  · cases h

theorem dstab_str (n : Nat) : DStab 8 n readStr readStr := by
  rintro bs a r h
  unfold readStr at h
  split at h
  · cases h
  · next hb =>
    dsimp only at h
    split at h
    · next hs =>
      cases h
      have hl : (bs.take 8).length = 8 := by simp; omega
      have hl2 : ((bs.drop 8).take (leVal (bs.take 8))).length = leVal (bs.take 8) := by
        rw [List.length_take]; omega
      refine ⟨bs.take 8 ++ (bs.drop 8).take (leVal (bs.take 8)), by simp only [List.length_append]; omega, ?_, fun _ s => ?_⟩
      · rw [List.append_assoc, List.take_append_drop, List.take_append_drop]
      · rw [readStr, List.append_assoc, if_neg (by simp only [List.length_append]; omega), List.take_left' hl, List.drop_left' hl]
        dsimp only
        rw [if_pos (by simp only [List.length_append]; omega), List.take_left' hl2, List.drop_left' hl2]
    · cases h

theorem dstab_val (n : Nat) : DStab 0 n readVal readVal := by
  rintro bs a r h
  unfold readVal at h
  cases hv : Wire.deserialize bs with
  | none => rw [hv] at h; cases h
  | some x =>
    obtain ⟨v, r'⟩ := x
    rw [hv] at h
    cases h
    obtain ⟨c, hc, hs⟩ := Wire.stab_deserialize n bs _ _ hv
    refine ⟨c, by omega, hc, fun hl s => ?_⟩
    rw [readVal, hs hl]

theorem dstab_bool (n : Nat) : DStab 0 n readBool readBool := by
  refine (dstab_val n).bind fun v => ?_
  cases v <;> first | exact DStab.pure _ | exact DStab.fail

theorem dstab_opt {n : Nat} {d d' : Dec Expr} (h : DStab 0 n d d') (b : Bool) : DStab 0 n (readOpt d b) (readOpt d' b) := by
  cases b with
  | false => exact DStab.pure _
  | true => exact h.bind fun _ => DStab.pure _

theorem dstab_optStr (n : Nat) (b : Bool) : DStab 0 n (readOptStr b) (readOptStr b) := by
  cases b with
  | false => exact DStab.pure _
  | true => exact (dstab_str n).mono (by omega) (Nat.le_refl _)

theorem dstab_reset {n : Nat} {d d' : Dec Expr} (h : DStab 1 n d d') (k : Kind) : DStab 0 n (resetFrom d k) (resetFrom d' k) := by
  have h0 : DStab 0 n d d' := h.mono (by omega) (Nat.le_refl _)
  have hz : DStab 0 n readSize readSize := (dstab_size n).mono (by omega) (Nat.le_refl _)
  have hs : DStab 0 n readStr readStr := (dstab_str n).mono (by omega) (Nat.le_refl _)
  have hv := dstab_val n
  have hb := dstab_bool n
  have pr : ∀ {α : Type} (a : α), DStab 0 n (Pure.pure a : Dec α) (Pure.pure a) := fun a => DStab.pure a
  cases k with
  | const => exact hv.bind fun _ => pr _
  | un o => exact h0.bind fun _ => pr _
  | bin o => exact h0.bind fun _ => h0.bind fun _ => pr _
  | labelAttribute => exact DStab.fail
  | column =>
    refine hv.bind fun v => ?_
    cases v <;> first | exact DStab.pure _ | exact DStab.fail
  | logical o => exact hz.bind fun m => (dstab_many32 h m).bind fun _ => pr _
  | cast => exact hz.bind fun _ => h0.bind fun _ => pr _
  | call => exact hs.bind fun _ => hz.bind fun m => (dstab_many h0 m).bind fun _ => pr _
  | prop k =>
    simp only [resetFrom]
    split
    · exact DStab.fail
    · exact hs.bind fun _ => hs.bind fun _ => hs.bind fun _ => pr _
  | vertex => exact pr _
  | edge => exact pr _
  | uuid => exact hs.bind fun _ => pr _
  | var => exact hs.bind fun _ => pr _
  | versionedVar => exact DStab.fail
  | coll k => exact hz.bind fun m => (dstab_many32 h m).bind fun _ => pr _
  | map =>
    exact hz.bind fun m => (dstab_many32 (((dstab_str n).mono (p' := 1) (by omega) (Nat.le_refl _)).bind fun _ => h0.bind fun _ => pr _) m).bind fun _ => pr _
  | label => exact hs.bind fun _ => pr _
  | case =>
    exact hb.bind fun _ => hb.bind fun bc => hb.bind fun bd => hz.bind fun m => (dstab_opt h0 bc).bind fun _ => (dstab_opt h0 bd).bind fun _ =>
      (dstab_many32 (h.bind fun _ => h0.bind fun _ => pr _) m).bind fun _ => pr _
  | predicate =>
    exact hb.bind fun bi => hb.bind fun bf => hb.bind fun bo => hs.bind fun _ => (dstab_optStr n bi).bind fun _ => h0.bind fun _ =>
      (dstab_opt h0 bf).bind fun _ => (dstab_optStr n bo).bind fun _ => pr _
  | listComp =>
    exact hb.bind fun bf => hb.bind fun bm => hb.bind fun bo => hs.bind fun _ => h0.bind fun _ =>
      (dstab_opt h0 bf).bind fun _ => (dstab_opt h0 bm).bind fun _ => (dstab_optStr n bo).bind fun _ => pr _
  | reduce =>
    exact hb.bind fun bo => hs.bind fun _ => h0.bind fun _ => hs.bind fun _ => h0.bind fun _ => h0.bind fun _ =>
      (dstab_optStr n bo).bind fun _ => pr _
  | text _ => exact DStab.fail
  | aggregate => exact hs.bind fun _ => hb.bind fun _ => h0.bind fun _ => pr _
  | range =>
    refine h0.bind fun _ => hz.bind fun size => hz.bind fun index => ?_
    split
    · exact h0.bind fun _ => pr _
    · refine (dstab_opt h0 _).bind fun _ => ?_
      split
      · exact hz.bind fun _ => h0.bind fun _ => pr _
      · exact pr _

theorem dstab_decodeF : ∀ f m, DStab 1 (m + 1) (decodeF f) (decodeF m) := by
  intro f
  induction f with
  | zero => intro m; exact DStab.fail
  | succ f ih =>
    have main : ∀ m, DStab 1 (m + 2) (decodeF (f + 1)) (decodeF (m + 1)) := by
      intro m
      rw [decodeF, decodeF]
      refine (dstab_kind (m + 2)).bindP (q := 0) fun k => ?_
      cases kinds[k]? with
      | none => exact DStab.fail
      | some k => exact dstab_reset (ih m) k
    intro m
    cases m with
    | zero =>
      intro bs a r e
      obtain ⟨c, h0, hc, _⟩ := main 0 bs a r e
      exact ⟨c, h0, hc, fun hl => by omega⟩
    | succ m => exact main m

/-! ## Reading past the end -/

/-- Overruns of `d` are of at most eight bytes. -/
def Over {α : Type} (d : Dec α) : Prop := ∀ bs n, d bs = .oob n → 1 ≤ n ∧ n ≤ 8

section
variable {α β : Type}
theorem Over.pure (a : α) : Over (Pure.pure a : Dec α) := fun _ _ h => by cases h
theorem Over.fail : Over (Dec.fail : Dec α) := fun _ _ h => by cases h
theorem Over.bind {d : Dec α} {k : α → Dec β} (h : Over d) (hk : ∀ a, Over (k a)) : Over (d >>= k) := by
  intro bs n e
  change (match d bs with | .ok a r => k a r | .abort => .abort | .oob n => .oob n) = _ at e
  cases hd : d bs with
  | ok a r => rw [hd] at e; exact hk a r n e
  | abort => rw [hd] at e; cases e
  | oob m => rw [hd] at e; cases e; exact h bs n hd

theorem over_size : Over readSize := by
  intro bs n h; unfold readSize at h; split at h <;> cases h; omega
theorem over_kind : Over readKind := by intro bs n h; cases bs <;> cases h
theorem over_str : Over readStr := by
  intro bs n h; unfold readStr at h; split at h
  · cases h
  · dsimp only at h; split at h <;> cases h
theorem over_val : Over readVal := by
  intro bs n h; unfold readVal at h; cases hv : Wire.deserialize bs <;> rw [hv] at h <;> cases h
theorem over_bool : Over readBool := by
  refine over_val.bind fun v => ?_
  cases v <;> first | exact Over.pure _ | exact Over.fail
theorem over_opt {d : Dec Expr} (h : Over d) (b : Bool) : Over (readOpt d b) := by
  cases b with
  | false => exact Over.pure _
  | true => exact h.bind fun _ => Over.pure _
theorem over_optStr (b : Bool) : Over (readOptStr b) := by
  cases b with
  | false => exact Over.pure _
  | true => exact over_str
theorem over_many {d : Dec α} (h : Over d) : ∀ k, Over (readMany d k)
  | 0 => Over.pure _
  | k + 1 => h.bind fun _ => (over_many h k).bind fun _ => Over.pure _
theorem over_many32 {d : Dec α} (h : Over d) (k : Nat) : Over (readMany32 d k) := fun bs n e => over_many h _ bs n e
end

theorem over_reset {d : Dec Expr} (h : Over d) (k : Kind) : Over (resetFrom d k) := by
  have hz := over_size
  have hs := over_str
  have hb := over_bool
  have pr : ∀ {α : Type} (a : α), Over (Pure.pure a : Dec α) := fun a => Over.pure a
  cases k with
  | const => exact over_val.bind fun _ => pr _
  | un o => exact h.bind fun _ => pr _
  | bin o => exact h.bind fun _ => h.bind fun _ => pr _
  | labelAttribute => exact Over.fail
  | column =>
    refine over_val.bind fun v => ?_
    cases v <;> first | exact Over.pure _ | exact Over.fail
  | logical o => exact hz.bind fun m => (over_many32 h m).bind fun _ => pr _
  | cast => exact hz.bind fun _ => h.bind fun _ => pr _
  | call => exact hs.bind fun _ => hz.bind fun m => (over_many h m).bind fun _ => pr _
  | prop k =>
    simp only [resetFrom]
    split
    · exact Over.fail
    · exact hs.bind fun _ => hs.bind fun _ => hs.bind fun _ => pr _
  | vertex => exact pr _
  | edge => exact pr _
  | uuid => exact hs.bind fun _ => pr _
  | var => exact hs.bind fun _ => pr _
  | versionedVar => exact Over.fail
  | coll k => exact hz.bind fun m => (over_many32 h m).bind fun _ => pr _
  | map => exact hz.bind fun m => (over_many32 (hs.bind fun _ => h.bind fun _ => pr _) m).bind fun _ => pr _
  | label => exact hs.bind fun _ => pr _
  | case =>
    exact hb.bind fun _ => hb.bind fun bc => hb.bind fun bd => hz.bind fun m => (over_opt h bc).bind fun _ => (over_opt h bd).bind fun _ =>
      (over_many32 (h.bind fun _ => h.bind fun _ => pr _) m).bind fun _ => pr _
  | predicate =>
    exact hb.bind fun bi => hb.bind fun bf => hb.bind fun bo => hs.bind fun _ => (over_optStr bi).bind fun _ => h.bind fun _ =>
      (over_opt h bf).bind fun _ => (over_optStr bo).bind fun _ => pr _
  | listComp =>
    exact hb.bind fun bf => hb.bind fun bm => hb.bind fun bo => hs.bind fun _ => h.bind fun _ =>
      (over_opt h bf).bind fun _ => (over_opt h bm).bind fun _ => (over_optStr bo).bind fun _ => pr _
  | reduce =>
    exact hb.bind fun bo => hs.bind fun _ => h.bind fun _ => hs.bind fun _ => h.bind fun _ => h.bind fun _ =>
      (over_optStr bo).bind fun _ => pr _
  | text _ => exact Over.fail
  | aggregate => exact hs.bind fun _ => hb.bind fun _ => h.bind fun _ => pr _
  | range =>
    refine h.bind fun _ => hz.bind fun size => hz.bind fun index => ?_
    split
    · exact h.bind fun _ => pr _
    · refine (over_opt h _).bind fun _ => ?_
      split
      · exact hz.bind fun _ => h.bind fun _ => pr _
      · exact pr _

theorem over_decodeF : ∀ f, Over (decodeF f)
  | 0 => Over.fail
  | f + 1 => by
    rw [decodeF]
    refine over_kind.bind fun k => ?_
    cases kinds[k]? with
    | none => exact Over.fail
    | some k => exact over_reset (over_decodeF f) k

/-! ## No overrun without a size -/

/-- On inputs of which no byte satisfies `B` the step does not run past the end. -/
def Quiet {α : Type} (B : UInt8 → Prop) (d : Dec α) : Prop :=
  ∀ bs, (∀ b ∈ bs, ¬B b) → (∀ n, d bs ≠ .oob n) ∧ ∀ a r, d bs = .ok a r → ∀ b ∈ r, ¬B b

section
variable {α β : Type} {B : UInt8 → Prop}
theorem Quiet.pure (a : α) : Quiet B (Pure.pure a : Dec α) := fun bs hb =>
  ⟨(fun n h => by cases h), (fun a r h => by cases h; exact hb)⟩
theorem Quiet.fail : Quiet B (Dec.fail : Dec α) := fun bs hb => ⟨(fun n h => by cases h), (fun a r h => by cases h)⟩
theorem Quiet.bind {d : Dec α} {k : α → Dec β} (h : Quiet B d) (hk : ∀ a, Quiet B (k a)) : Quiet B (d >>= k) := by
  intro bs hb
  have h1 := h bs hb
  show (∀ n, (match d bs with | .ok a r => k a r | .abort => .abort | .oob n => .oob n) ≠ _) ∧ ∀ a r, (match d bs with
    | .ok a r => k a r | .abort => .abort | .oob n => .oob n) = _ → _
  cases hd : d bs with
  | ok a r => exact hk a r (h1.2 a r hd)
  | abort => exact ⟨(fun n e => by cases e), (fun a r e => by cases e)⟩
  | oob m => exact absurd hd (h1.1 m)

/-- A step that does not run past the end and leaves a suffix. -/
theorem Quiet.of {d d' : Dec α} {p n : Nat} (h : DStab p n d d') (ho : ∀ bs n, d bs ≠ .oob n) : Quiet B d := by
  intro bs hb
  refine ⟨ho bs, fun a r e b hr => ?_⟩
  obtain ⟨c, _, rfl, _⟩ := h bs a r e
  exact hb b (List.mem_append_right _ hr)

theorem quiet_str : Quiet B readStr := by
  refine Quiet.of (dstab_str 0) fun bs n h => ?_
  unfold readStr at h; split at h
  · cases h
  · dsimp only at h; split at h <;> cases h
theorem quiet_val : Quiet B readVal := by
  refine Quiet.of (dstab_val 0) fun bs n h => ?_
  unfold readVal at h; cases hv : Wire.deserialize bs <;> rw [hv] at h <;> cases h
theorem quiet_bool : Quiet B readBool := by
  refine quiet_val.bind fun v => ?_
  cases v <;> first | exact Quiet.pure _ | exact Quiet.fail
theorem quiet_opt {d : Dec Expr} (h : Quiet B d) (b : Bool) : Quiet B (readOpt d b) := by
  cases b with
  | false => exact Quiet.pure _
  | true => exact h.bind fun _ => Quiet.pure _
theorem quiet_optStr (b : Bool) : Quiet B (readOptStr b) := by
  cases b with
  | false => exact Quiet.pure _
  | true => exact quiet_str
end

theorem quiet_reset {B : UInt8 → Prop} {d : Dec Expr} (h : Quiet B d) (k : Kind) (hk : ¬Sized k) : Quiet B (resetFrom d k) := by
  have hs : Quiet B readStr := quiet_str
  have hb : Quiet B readBool := quiet_bool
  have pr : ∀ {α : Type} (a : α), Quiet B (Pure.pure a : Dec α) := fun a => Quiet.pure a
  cases k with
  | const => exact quiet_val.bind fun _ => pr _
  | un o => exact h.bind fun _ => pr _
  | bin o => exact h.bind fun _ => h.bind fun _ => pr _
  | labelAttribute => exact Quiet.fail
  | column =>
    refine quiet_val.bind fun v => ?_
    cases v <;> first | exact Quiet.pure _ | exact Quiet.fail
  | prop k =>
    simp only [resetFrom]
    split
    · exact Quiet.fail
    · exact hs.bind fun _ => hs.bind fun _ => hs.bind fun _ => pr _
  | vertex => exact pr _
  | edge => exact pr _
  | uuid => exact hs.bind fun _ => pr _
  | var => exact hs.bind fun _ => pr _
  | versionedVar => exact Quiet.fail
  | label => exact hs.bind fun _ => pr _
  | predicate =>
    exact hb.bind fun bi => hb.bind fun bf => hb.bind fun bo => hs.bind fun _ => (quiet_optStr bi).bind fun _ => h.bind fun _ =>
      (quiet_opt h bf).bind fun _ => (quiet_optStr bo).bind fun _ => pr _
  | listComp =>
    exact hb.bind fun bf => hb.bind fun bm => hb.bind fun bo => hs.bind fun _ => h.bind fun _ =>
      (quiet_opt h bf).bind fun _ => (quiet_opt h bm).bind fun _ => (quiet_optStr bo).bind fun _ => pr _
  | reduce =>
    exact hb.bind fun bo => hs.bind fun _ => h.bind fun _ => hs.bind fun _ => h.bind fun _ => h.bind fun _ =>
      (quiet_optStr bo).bind fun _ => pr _
  | text _ => exact Quiet.fail
  | aggregate => exact hs.bind fun _ => hb.bind fun _ => h.bind fun _ => pr _
  | _ => exact absurd rfl hk

/-- The byte of a kind with a size. -/
def SizedByte (b : UInt8) : Prop := ∃ k, kinds[b.toNat]? = some k ∧ Sized k

theorem quiet_decodeF : ∀ f, Quiet SizedByte (decodeF f)
  | 0 => Quiet.fail
  | f + 1 => by
    intro bs hb
    rw [decodeF]
    cases bs with
    | nil => exact ⟨(fun n e => by cases e), fun a r e => by cases e⟩
    | cons b bs =>
      have hb' : ∀ x ∈ bs, ¬SizedByte x := fun x hx => hb x (List.mem_cons_of_mem _ hx)
      show (∀ n, (match kinds[b.toNat]? with | none => Dec.fail | some k => resetFrom (decodeF f) k : Dec Expr) bs ≠ .oob n) ∧
        ∀ a r, (match kinds[b.toNat]? with | none => Dec.fail | some k => resetFrom (decodeF f) k : Dec Expr) bs = .ok a r → _
      cases hk : kinds[b.toNat]? with
      | none => exact Quiet.fail bs hb'
      | some k =>
        exact quiet_reset (quiet_decodeF f) k (fun hs => hb b List.mem_cons_self ⟨k, hk, hs⟩) bs hb'

end Expr
end Nebula
