import Verif.Cord.Lemmas
/-! # Properties of `Cord` (C24) and `ICord` (C25) -/
namespace Nebula

/-- C24: however a cord was made, it holds exactly the bytes written since the last `clear`: its size,
whether it is empty, its string, what it appends to another string and the pieces a visitor sees (all
non-empty, no longer than a block, visited in order until the visitor refuses). -/
theorem C24_contents {c : Cord} {bs : Bytes} (h : Cord.Made c bs) :
    c.size = bs.length ∧ c.empty = bs.isEmpty ∧ c.str = some bs ∧
    (∀ s, c.appendTo s = some (s ++ bs, bs.length)) ∧
    ∃ pieces : List Bytes, pieces.flatten = bs ∧ (∀ p ∈ pieces, p ≠ [] ∧ p.length ≤ c.csize) ∧
      ∀ (σ : Type) (visitor : σ → Bytes → σ × Bool) (s : σ), c.applyTo visitor s = some (visitAll visitor pieces s) := by
  have hr := Cord.made_rep h
  refine ⟨hr.size, ?_, ?_, Cord.appendTo_rep hr, Cord.applyTo_rep hr⟩
  · unfold Cord.empty
    rw [hr.size]
    cases bs <;> simp
  · unfold Cord.str
    rw [Cord.appendTo_rep hr]; simp

/-- C24: writing is always defined (and by `C24_contents` appends). -/
theorem C24_write {c : Cord} {bs : Bytes} (h : Cord.Made c bs) (v : Bytes) :
    ∃ c', c.write v = some c' ∧ Cord.Made c' (bs ++ v) := by
  obtain ⟨c', h1, _⟩ := Cord.write_rep (Cord.made_rep h) v
  exact ⟨c', h1, .write v h h1⟩

/-- C24: `clear` is always defined, frees every block once, and leaves a usable empty cord. -/
theorem C24_clear {c : Cord} {bs : Bytes} (h : Cord.Made c bs) :
    ∃ c', c.clear = some c' ∧ Cord.Made c' [] ∧ c'.head = none ∧ ∀ b ∈ c'.heap, b = none := by
  obtain ⟨c', h1, h2, _⟩ := Cord.clear_rep (Cord.made_rep h)
  refine ⟨c', h1, .clear h h1, h2.head, ?_⟩
  obtain ⟨n, hn⟩ := h2.heap
  rw [hn]
  intro b hb
  exact List.eq_of_mem_replicate hb

/-- The full claim about appending one cord to another: always defined. -/
def CordAppendTotal : Prop :=
  ∀ {c d : Cord} {bs ds : Bytes}, Cord.Made c bs → Cord.Made d ds → ∃ c', c.appendCord d = some c'

/-- C24, what holds: appending a non-empty cord of the same block size is defined and concatenates; and
whenever appending is defined at all, it concatenates. Missing: the empty cord and different block
sizes. -/
theorem C24_append_partial {c d : Cord} {bs ds : Bytes} (hc : Cord.Made c bs) (hd : Cord.Made d ds) :
    (c.csize = d.csize → ds ≠ [] → ∃ c', c.appendCord d = some c' ∧ Cord.Made c' (bs ++ ds)) ∧
    (∀ c', c.appendCord d = some c' → c'.str = some (bs ++ ds)) := by
  constructor
  · intro hs hne
    obtain ⟨c', h1, _⟩ := Cord.appendCord_rep (Cord.made_rep hc) (Cord.made_rep hd) hs hne
    exact ⟨c', h1, .append hc hd h1⟩
  · intro c' h
    exact (C24_contents (.append hc hd h)).2.2.1

/-- C24 violated: appending an empty cord (whatever the sizes) copies from a null pointer. -/
theorem C24_append_empty_violated {c d : Cord} {bs : Bytes} (_ : Cord.Made c bs) (hd : Cord.Made d []) :
    c.appendCord d = none := by
  rcases Cord.made_rep hd with ⟨hd, _⟩ | ⟨base, full, lst, _, hl, he⟩
  · have hp := hd.pos
    have hpt : d.blockPt ≠ 0 := by rw [hd.pt]; omega
    simp [Cord.appendCord, Cord.appendCordLoop, hd.head, hd.tail, hpt, CordHeap.block]
  · simp at he; exact absurd he.2 hl

/-- C24 violated: appending a cord of a different block size that has more than one block reads outside
a block or takes contents for a link. -/
theorem C24_append_sizes_violated {c d : Cord} {bs ds : Bytes} (hc : Cord.Made c bs) (hd : Cord.Made d ds)
    (hs : c.csize ≠ d.csize) (hl : d.csize < ds.length) : c.appendCord d = none := by
  cases h : c.appendCord d with
  | none => rfl
  | some c' =>
    exfalso
    rcases Cord.made_rep hd with ⟨_, rfl⟩ | ⟨base, full, lst, hr, hne, rfl⟩
    · simp at hl
    · have hw := hr.walk
      unfold Cord.appendCord at h
      rw [hr.head] at h
      cases full with
      | nil =>
        obtain ⟨junk, _, hj, _⟩ := hr.heap
        simp at hl; omega
      | cons f fs =>
        obtain ⟨ht, hfl, ⟨blk, h1, h2, h3, h4⟩, _⟩ := hw.next
        simp only [Cord.appendCordLoop, ne_eq, ht, not_false_eq_true, if_true, h1] at h
        cases hr : blk.read c.csize with
        | none => simp [hr] at h
        | some bytes =>
          simp only [hr] at h
          obtain ⟨c'', w1, w2, w3, _⟩ := Cord.write_rep (Cord.made_rep hc) bytes
          have : blk.link c.csize = none := by
            unfold CordBlock.link; rw [if_neg (by rw [h4]; exact hs)]
          simp [w1, this] at h

theorem C24_append_violated : ¬ CordAppendTotal := by
  intro h
  obtain ⟨c', hc⟩ := h (.new 4 (by decide)) (.new 4 (by decide))
  rw [C24_append_empty_violated (.new 4 (by decide)) (.new 4 (by decide))] at hc
  cases hc

/-- C24 violated: `c << c` never ends for a cord of more than one block, however many steps it gets. -/
theorem C24_append_self_violated {c : Cord} {bs : Bytes} (h : Cord.Made c bs) (hl : c.csize < bs.length) (steps : Nat) :
    Cord.appendSelfLoop steps c.head c = none := by
  rcases Cord.made_rep h with ⟨_, rfl⟩ | ⟨base, full, lst, hr, hne, rfl⟩
  · simp at hl
  · cases full with
    | nil =>
      obtain ⟨junk, _, hj, _⟩ := hr.heap
      simp at hl; omega
    | cons f fs =>
      rw [hr.head]
      have := Cord.appendSelfLoop_diverges steps c base 0 (f :: fs) lst hr hne (by simp)
      simpa using this

/-- A cord of 4-byte blocks that received "hello" and " world". -/
example : ∃ c, Cord.Made c [104, 101, 108, 108, 111, 32, 119, 111, 114, 108, 100] ∧ c.csize = 4 ∧
    c.heap.length = 3 ∧ c.str = some [104, 101, 108, 108, 111, 32, 119, 111, 114, 108, 100] := by
  have h : (((Cord.new 4).write [104, 101, 108, 108, 111]).bind (·.write [32, 119, 111, 114, 108, 100])).isSome := by
    decide +kernel
  cases h1 : (Cord.new 4).write [104, 101, 108, 108, 111] with
  | none => rw [h1] at h; simp at h
  | some c1 =>
    cases h2 : c1.write [32, 119, 111, 114, 108, 100] with
    | none => rw [h1] at h; simp [h2] at h
    | some c2 =>
      have hm : Cord.Made c2 [104, 101, 108, 108, 111, 32, 119, 111, 114, 108, 100] :=
        .write _ (.write (bs := []) _ (.new 4 (by decide)) h1) h2
      have e : ((Cord.new 4).write [104, 101, 108, 108, 111]).bind (·.write [32, 119, 111, 114, 108, 100]) = some c2 := by
        rw [h1]; exact h2
      have e2 : (((Cord.new 4).write [104, 101, 108, 108, 111]).bind (·.write [32, 119, 111, 114, 108, 100])).map
        (fun c => (c.csize, c.heap.length)) = some (4, 3) := by decide +kernel
      rw [e] at e2
      simp at e2
      exact ⟨c2, hm, e2.1, e2.2, (C24_contents hm).2.2.1⟩

/-! ## C25 -/

/-- C25: after any sequence of writes to a new inline-buffer cord its size, emptiness, string and what it
appends to another string are those of the concatenation of the writes. -/
theorem C25_contents {c : ICord} {bs : Bytes} (h : ICord.Written c bs) :
    c.size = bs.length ∧ c.empty = bs.isEmpty ∧ c.str = some bs ∧
    ∀ s, c.appendTo s = some (s ++ bs, bs.length) := by
  have hr := ICord.written_rep h
  refine ⟨hr.size, ?_, ?_, ICord.appendTo_rep hr⟩
  · unfold ICord.empty
    rw [hr.size]
    cases bs <;> simp
  · unfold ICord.str
    rw [ICord.appendTo_rep hr]; simp

/-- C25: writing is always defined. -/
theorem C25_write {c : ICord} {bs : Bytes} (h : ICord.Written c bs) (v : Bytes) :
    ∃ c', c.write v = some c' ∧ ICord.Written c' (bs ++ v) := by
  obtain ⟨c', h1, _⟩ := ICord.write_rep (ICord.written_rep h) v
  exact ⟨c', h1, .write v h h1⟩

/-- C25, what holds of visiting: the pieces are the contents when their size is zero or not a multiple
of the block size. -/
theorem C25_visit_partial {c : ICord} {bs : Bytes} (h : ICord.Written c bs) (hm : bs = [] ∨ bs.length % c.csize ≠ 0) :
    ∃ pieces : List Bytes, pieces.flatten = bs ∧
      ∀ (σ : Type) (visitor : σ → Bytes → σ × Bool) (s : σ), c.applyTo visitor s = some (visitAll visitor pieces s) := by
  obtain ⟨ps, h1, _, h3⟩ := ICord.applyTo_rep (ICord.written_rep h)
  refine ⟨ps, ?_, h3⟩
  rw [h1]
  rcases hm with rfl | hm
  · simp
  · rw [if_neg hm, List.take_length]

/-- C25 violated: with contents that fill whole blocks a visitor never sees the last block. -/
theorem C25_visit_violated {c : ICord} {bs : Bytes} (h : ICord.Written c bs) (hne : bs ≠ [])
    (hm : bs.length % c.csize = 0) :
    ∃ pieces : List Bytes, pieces.flatten = bs.take (bs.length - c.csize) ∧ pieces.flatten ≠ bs ∧
      ∀ (σ : Type) (visitor : σ → Bytes → σ × Bool) (s : σ), c.applyTo visitor s = some (visitAll visitor pieces s) := by
  obtain ⟨ps, h1, _, h3⟩ := ICord.applyTo_rep (ICord.written_rep h)
  rw [if_pos hm] at h1
  refine ⟨ps, h1, ?_, h3⟩
  rw [h1]
  intro e
  have := congrArg List.length e
  have hp := c.csize_pos
  have hb := List.length_pos_iff.2 hne
  rw [List.length_take] at this
  omega

/-- C25, what holds of appending another inline-buffer cord of the same type: it concatenates when the
size of the other one is zero or not a multiple of the block size. -/
theorem C25_append_partial {c d : ICord} {bs ds : Bytes} (hc : ICord.Written c bs) (hd : ICord.Written d ds)
    (ht : c.csize = d.csize) (hm : ds = [] ∨ ds.length % d.csize ≠ 0) :
    ∃ c', c.appendCord d = some c' ∧ c'.str = some (bs ++ ds) ∧ c'.size = bs.length + ds.length := by
  obtain ⟨c', h1, h2⟩ := ICord.appendCord_rep (ICord.written_rep hc) (ICord.written_rep hd) ht
  have e : ds.take (if ds.length % d.csize = 0 then ds.length - d.csize else ds.length) = ds := by
    rcases hm with rfl | hm
    · simp
    · rw [if_neg hm, List.take_length]
  rw [e] at h2
  refine ⟨c', h1, ?_, ?_⟩
  · unfold ICord.str; rw [ICord.appendTo_rep h2]; simp
  · show c'.len = _
    rw [h2.size]; simp

/-- C25 violated: appending a cord whose contents fill whole blocks loses its last block. -/
theorem C25_append_violated {c d : ICord} {bs ds : Bytes} (hc : ICord.Written c bs) (hd : ICord.Written d ds)
    (ht : c.csize = d.csize) (hne : ds ≠ []) (hm : ds.length % d.csize = 0) :
    ∃ c', c.appendCord d = some c' ∧ c'.str = some (bs ++ ds.take (ds.length - d.csize)) ∧
      c'.str ≠ some (bs ++ ds) := by
  obtain ⟨c', h1, h2⟩ := ICord.appendCord_rep (ICord.written_rep hc) (ICord.written_rep hd) ht
  rw [if_pos hm] at h2
  have hs : c'.str = some (bs ++ ds.take (ds.length - d.csize)) := by
    unfold ICord.str; rw [ICord.appendTo_rep h2]; simp
  refine ⟨c', h1, hs, ?_⟩
  rw [hs]
  intro e
  have := congrArg List.length (List.append_cancel_left (Option.some.inj e))
  have hp := d.csize_pos
  have hb := List.length_pos_iff.2 hne
  rw [List.length_take] at this
  omega

/-- C25: `clear` frees all blocks but the inline one, exactly once, and the cord then reads as empty. -/
theorem C25_clear_partial {c : ICord} {bs : Bytes} (h : ICord.Written c bs) :
    ∃ c', c.clear = some c' ∧ c'.size = 0 ∧ c'.str = some [] ∧ ∃ b n, c'.heap = some b :: List.replicate n none := by
  obtain ⟨c', b, n, h1, h2, h3, h4, h5⟩ := ICord.clear_rep (ICord.written_rep h)
  exact ⟨c', h1, h2, by simp [ICord.str, ICord.appendTo, ICord.empty, h2], b, n, h5⟩

/-- C25 violated: a cleared cord cannot be written again; the write goes through a null pointer. -/
theorem C25_clear_violated {c : ICord} {bs : Bytes} (h : ICord.Written c bs) (v : Bytes) (hv : v ≠ []) :
    ∃ c', c.clear = some c' ∧ c'.write v = none := by
  obtain ⟨c', b, n, h1, h2, h3, h4, h5⟩ := ICord.clear_rep (ICord.written_rep h)
  refine ⟨c', h1, ?_⟩
  rw [ICord.write, dif_neg hv]
  simp [ICord.room, h2, h4]

/-- An inline-buffer cord of 4-byte blocks filled exactly. -/
example : ∃ c, ICord.Written c [1, 2, 3, 4, 5, 6, 7, 8] ∧ c.csize = 4 := by
  obtain ⟨c, h1, h2⟩ := C25_write (ICord.Written.new 2) [1, 2, 3, 4, 5, 6, 7, 8]
  refine ⟨c, h2, ?_⟩
  have e : ((ICord.new 2).write [1, 2, 3, 4, 5, 6, 7, 8]).map ICord.csize = some 4 := by decide +kernel
  rw [h1] at e
  simpa using e

end Nebula
