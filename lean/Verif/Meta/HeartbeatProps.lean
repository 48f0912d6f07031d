import Verif.Meta.Heartbeat
/-! # C105: a storage server belongs to one cluster -/
namespace Nebula
namespace Meta
open Fs

/-- The id a storage server sends in an event. -/
def HbEvent.Sends (st : HbState) (id : UInt64) : HbEvent → Prop
  | .beat i => hbSent st i.readable = id
  | .crash i _ => hbSent st i.readable = id
  | _ => False

theorem get_power (kept : Bool) (f : IdFile) : getClusterIdFromFile (afterPower kept f) = getClusterIdFromFile f ∨ getClusterIdFromFile (afterPower kept f) = 0 := by
  unfold afterPower
  cases kept with
  | true => exact .inl rfl
  | false =>
    cases f with
    | none => exact .inl rfl
    | some b => exact .inr (get_zeros _)

theorem get_final (sys : Sys) (file : IdFile) (id : UInt64) : getClusterIdFromFile (persistInFile sys file id).final = id ∨
    getClusterIdFromFile (persistInFile sys file id).final = getClusterIdFromFile file ∨ getClusterIdFromFile (persistInFile sys file id).final = 0 := by
  cases h : (persistInFile sys file id).ok with
  | true => exact .inl (C64_read_back sys file id h)
  | false => exact .inr (C64_failed sys file id h)

/-- The memory and the file know the cluster `g` or nothing. -/
def Knows (g : UInt64) (st : HbState) : Prop := (st.mem = 0 ∨ st.mem = g) ∧ (getClusterIdFromFile st.file = 0 ∨ getClusterIdFromFile st.file = g)

theorem knows_sent {g : UInt64} {st : HbState} (h : Knows g st) (r : Bool) : hbSent st r = 0 ∨ hbSent st r = g := by
  unfold hbSent
  split
  · split
    · exact h.2
    · exact .inl rfl
  · exact h.1

/-- Every answer of the server names the cluster `g`. -/
def HbEvent.From (g : UInt64) : HbEvent → Prop
  | .beat i => ∀ r, i.answer = some r → r = g
  | .crash i _ => ∀ r, i.answer = some r → r = g
  | _ => True

theorem knows_step {g : UInt64} {st st' : HbState} {e : HbEvent} (h : Knows g st) (he : e.From g) (hs : HbStep st e st') : Knows g st' := by
  cases hs with
  | @beat i m f hb =>
    unfold heartbeat at hb
    dsimp only at hb
    have hk := knows_sent h i.readable
    cases ha : i.answer with
    | none =>
      rw [ha] at hb; cases hb
      exact ⟨hk, h.2⟩
    | some r =>
      have hr := he r ha
      subst hr
      rw [ha] at hb
      dsimp only at hb
      split at hb
      · split at hb
        · cases hb
          rename_i hok
          exact ⟨.inr rfl, .inr (C64_read_back _ _ _ hok)⟩
        · cases hb
      · cases hb; exact ⟨hk, h.2⟩
  | @fatal i f hb =>
    unfold heartbeat at hb
    dsimp only at hb
    cases ha : i.answer with
    | none => rw [ha] at hb; cases hb
    | some r =>
      have hr := he r ha
      subst hr
      rw [ha] at hb
      dsimp only at hb
      split at hb
      · split at hb
        · cases hb
        · cases hb
          refine ⟨.inl rfl, ?_⟩
          rcases get_final i.sys st.file r with h1 | h1 | h1
          · exact .inr h1
          · rw [h1]; exact h.2
          · exact .inl h1
      · cases hb
  | restart => exact ⟨.inl rfl, h.2⟩
  | power =>
    refine ⟨.inl rfl, ?_⟩
    rename_i kept
    rcases get_power kept st.file with h1 | h1
    · rw [h1]; exact h.2
    · exact .inl h1
  | @crash i r f ha _ hc =>
    have hr := he r ha
    subst hr
    refine ⟨.inl rfl, ?_⟩
    rcases C64_crash i.sys st.file r f hc with h1 | h1 | h1
    · rw [h1]; exact h.2
    · exact .inr h1
    · exact .inl h1

/-- **C105 (one cluster).** If the meta service always names the same cluster, a storage server only ever sends that id, or 0 for unknown: through any
sequence of heartbeats, failed requests, restarts, losses of power and crashes inside a heartbeat, from an empty file or one of that cluster. -/
theorem C105_one_cluster {g : UInt64} {file : IdFile} (hf : getClusterIdFromFile file = 0 ∨ getClusterIdFromFile file = g) {h : List HbEvent} {st : HbState}
    (hx : Exec HbStep ⟨0, file⟩ h st) (hg : ∀ e ∈ h, e.From g) :
    (∀ e id, HbEvent.Sends st id e → id = 0 ∨ id = g) ∧ (getClusterIdFromFile st.file = 0 ∨ getClusterIdFromFile st.file = g) := by
  have hk : Knows g st := Exec.preserved (P := Knows g) (Q := fun e => e.From g) (fun a e b ha he hs => knows_step ha he hs) hx hg ⟨.inl rfl, hf⟩
  refine ⟨fun e id hs => ?_, hk.2⟩
  cases e with
  | beat i => simp only [HbEvent.Sends] at hs; rw [← hs]; exact knows_sent hk _
  | crash i f => simp only [HbEvent.Sends] at hs; rw [← hs]; exact knows_sent hk _
  | restart => exact hs.elim
  | power k => exact hs.elim

/-- **C105 (learnt).** An answered heartbeat that does not end the process leaves the id known, in memory and, if it was just learnt, in the file. -/
theorem C105_learnt {st : HbState} {i : HbInput} {g m : UInt64} {f : IdFile} (ha : i.answer = some g) (hb : heartbeat st i = (some m, f)) :
    (hbSent st i.readable = 0 → m = g ∧ getClusterIdFromFile f = g) ∧ (hbSent st i.readable ≠ 0 → m = hbSent st i.readable ∧ f = st.file) := by
  unfold heartbeat at hb
  rw [ha] at hb
  dsimp only at hb
  constructor
  · intro h0
    rw [if_pos h0] at hb
    split at hb
    · rename_i hok
      cases hb
      exact ⟨rfl, C64_read_back _ _ _ hok⟩
    · cases hb
  · intro h0
    rw [if_neg h0] at hb
    cases hb
    exact ⟨rfl, rfl⟩

/-- The events in which the disk keeps what was written and the file can be read. -/
def HbEvent.Calm : HbEvent → Prop
  | .beat i => i.readable = true
  | .restart => True
  | .power kept => kept = true
  | .crash i _ => i.readable = true

/-- **C105 (kept).** Once the file names a cluster, no answer of any server changes it or makes the storage server send another id, as long as the file
can be read and the disk keeps it. -/
theorem C105_kept {g : UInt64} (hg : g ≠ 0) {file : IdFile} (hf : getClusterIdFromFile file = g) {m : UInt64} (hm : m = 0 ∨ m = g) {h : List HbEvent}
    {st : HbState} (hx : Exec HbStep ⟨m, file⟩ h st) (hc : ∀ e ∈ h, e.Calm) :
    st.file = file ∧ ∀ e, e.Calm → ∀ id, HbEvent.Sends st id e → id = g := by
  have sent : ∀ st : HbState, (st.mem = 0 ∨ st.mem = g) ∧ st.file = file → hbSent st true = g := by
    intro st hs
    unfold hbSent
    rw [hs.2]
    split
    · exact hf
    · exact hs.1.resolve_left ‹_›
  have hk : (st.mem = 0 ∨ st.mem = g) ∧ st.file = file := by
    refine Exec.preserved (P := fun st => (st.mem = 0 ∨ st.mem = g) ∧ st.file = file) (Q := HbEvent.Calm) ?_ hx hc ⟨hm, rfl⟩
    intro a e b ha he hs
    have hsent := sent a ha
    cases hs with
    | @beat i m f hb =>
      simp only [HbEvent.Calm] at he
      unfold heartbeat at hb
      rw [he, hsent] at hb
      dsimp only at hb
      cases h : i.answer with
      | none => rw [h] at hb; cases hb; exact ⟨.inr rfl, ha.2⟩
      | some r => rw [h] at hb; dsimp only at hb; rw [if_neg hg] at hb; cases hb; exact ⟨.inr rfl, ha.2⟩
    | @fatal i f hb =>
      simp only [HbEvent.Calm] at he
      unfold heartbeat at hb
      rw [he, hsent] at hb
      dsimp only at hb
      cases h : i.answer with
      | none => rw [h] at hb; cases hb
      | some r => rw [h] at hb; dsimp only at hb; rw [if_neg hg] at hb; cases hb
    | restart => exact ⟨.inl rfl, ha.2⟩
    | power =>
      simp only [HbEvent.Calm] at he
      subst he
      exact ⟨.inl rfl, ha.2⟩
    | @crash i r f _ h0 _ =>
      simp only [HbEvent.Calm] at he
      rw [he, hsent] at h0
      exact absurd h0 hg
  refine ⟨hk.2, fun e he id hs => ?_⟩
  cases e with
  | beat i => simp only [HbEvent.Sends, HbEvent.Calm] at hs he; rw [← hs, he]; exact sent st hk
  | crash i f => simp only [HbEvent.Sends, HbEvent.Calm] at hs he; rw [← hs, he]; exact sent st hk
  | restart => exact hs.elim
  | power k => exact hs.elim

/-- **C105 (violated).** A file that cannot be read once, after a restart, is taken for a missing one: the server adopts whatever cluster answers and
overwrites the file. -/
theorem C105_unreadable_violated : ∃ st, Exec HbStep ⟨7, some (leBytes 8 7)⟩ [.restart, .beat ⟨false, some 9, ⟨true, true, true, some 8⟩⟩] st ∧
    st.mem = 9 ∧ getClusterIdFromFile st.file = 9 :=
  ⟨⟨9, some (leBytes 8 9)⟩, .cons .restart (.cons (.beat (by decide +kernel)) .nil), rfl, by decide +kernel⟩

/-- The hypotheses can be met: a first start, a crash while the id is written, a restart and two heartbeats. -/
example : ∃ h st, Exec HbStep ⟨0, none⟩ h st ∧ h.length = 5 ∧ (∀ e ∈ h, HbEvent.From 7 e) ∧ st.mem = 7 ∧ getClusterIdFromFile st.file = 7 := by
  refine ⟨[.beat ⟨true, none, ⟨true, true, true, some 8⟩⟩, .crash ⟨true, some 7, ⟨true, true, true, some 8⟩⟩ (some []), .beat ⟨true, some 7, ⟨true, true, true, some 8⟩⟩,
    .restart, .beat ⟨true, some 7, ⟨true, true, true, some 8⟩⟩], ⟨7, some (leBytes 8 7)⟩,
    .cons (.beat (m := 0) (f := none) (by decide +kernel)) (.cons (.crash rfl (by decide +kernel) (.inl (by decide +kernel))) (.cons (.beat (m := 7) (f := some (leBytes 8 7)) (by decide +kernel)) (.cons .restart
      (.cons (.beat (by decide +kernel)) .nil)))), rfl, ?_, rfl, by decide +kernel⟩
  intro e he
  simp only [List.mem_cons, List.not_mem_nil, or_false] at he
  rcases he with rfl | rfl | rfl | rfl | rfl
  · intro r h; cases h
  · intro r h; cases h; rfl
  · intro r h; cases h; rfl
  · trivial
  · intro r h; cases h; rfl

end Meta
end Nebula
