import Verif.Cord.Spec
/-! # Lemmas about cords -/
namespace Nebula

/-- Full blocks at consecutive addresses from `b`, each linked to the next address. -/
def mkChain : Nat → List Bytes → CordHeap
  | _, [] => []
  | b, f :: fs => some ⟨f.map some, some (b + 1)⟩ :: mkChain (b + 1) fs

theorem mkChain_length (b : Nat) (fs : List Bytes) : (mkChain b fs).length = fs.length := by
  induction fs generalizing b with
  | nil => rfl
  | cons f fs ih => simp [mkChain, ih]

theorem mkChain_append (b : Nat) (fs : List Bytes) (f : Bytes) :
    mkChain b (fs ++ [f]) = mkChain b fs ++ [some ⟨f.map some, some (b + fs.length + 1)⟩] := by
  induction fs generalizing b with
  | nil => rfl
  | cons g fs ih => simp [mkChain, ih]; omega

theorem mapM_some (l : Bytes) : (l.map some).mapM id = some l := by
  induction l with
  | nil => rfl
  | cons a l ih => simp [List.mapM_cons, ih]

theorem read_prefix (l : Bytes) (junk : List (Option UInt8)) (nx : Option Nat) :
    CordBlock.read ⟨l.map some ++ junk, nx⟩ l.length = some l := by
  unfold CordBlock.read
  rw [if_pos (by simp)]
  have : List.take l.length (l.map some ++ junk) = l.map some := by
    have := List.take_left (l₁ := l.map some) (l₂ := junk)
    simpa using this
  rw [this, mapM_some]

theorem read_full (l : Bytes) (nx : Option Nat) : CordBlock.read ⟨l.map some, nx⟩ l.length = some l := by
  have := read_prefix l [] nx
  simpa using this

theorem block_at (pre post : CordHeap) (b : CordBlock) :
    CordHeap.block (pre ++ some b :: post) (some pre.length) = some b := by
  simp [CordHeap.block]

theorem put_prefix (l v : Bytes) (junk : List (Option UInt8)) (nx : Option Nat) (h : v.length ≤ junk.length) :
    CordBlock.put ⟨l.map some ++ junk, nx⟩ l.length v =
      some ⟨(l ++ v).map some ++ junk.drop v.length, nx⟩ := by
  unfold CordBlock.put
  rw [if_pos (by simp; omega)]
  have h1 : List.take l.length (l.map some ++ junk) = l.map some := by
    have := List.take_left (l₁ := l.map some) (l₂ := junk)
    simpa using this
  have h2 : List.drop (l.length + v.length) (l.map some ++ junk) = junk.drop v.length := by
    rw [List.drop_append]
    simp
  simp [h1, h2]

theorem set_at (pre post : CordHeap) (a b : Option CordBlock) (n : Nat) (h : pre.length = n) :
    (pre ++ a :: post).set n b = pre ++ b :: post := by
  subst h; simp

/-! ## `Cord` -/

/-- The cord is the chain of full blocks `full` followed by a block holding `lst`. -/
structure Cord.Chain (c : Cord) (base : Nat) (full : List Bytes) (lst : Bytes) : Prop where
  pos : 0 < c.csize
  sizes : ∀ f ∈ full, f.length = c.csize
  heap : ∃ junk nx, lst.length + junk.length = c.csize ∧
    c.heap = List.replicate base none ++ mkChain base full ++ [some ⟨lst.map some ++ junk, nx⟩]
  head : c.head = some base
  tail : c.tail = some (base + full.length)
  pt : c.blockPt = lst.length
  len : c.len = (full.flatten ++ lst).length

/-- No block allocated. -/
structure Cord.Nil (c : Cord) : Prop where
  pos : 0 < c.csize
  heap : ∃ n, c.heap = List.replicate n none
  head : c.head = none
  tail : c.tail = none
  pt : c.blockPt = c.csize
  len : c.len = 0

/-- The cord holds `bs`. -/
def Cord.Rep (c : Cord) (bs : Bytes) : Prop :=
  (c.Nil ∧ bs = []) ∨ ∃ base full lst, c.Chain base full lst ∧ lst ≠ [] ∧ bs = full.flatten ++ lst

theorem Cord.Rep.pos {c : Cord} {bs : Bytes} (h : c.Rep bs) : 0 < c.csize := by
  rcases h with ⟨h, _⟩ | ⟨_, _, _, h, _⟩ <;> exact h.pos

theorem Cord.new_rep {n : Nat} (h : 0 < n) : (Cord.new n).Rep [] :=
  .inl ⟨⟨h, ⟨0, rfl⟩, rfl, rfl, rfl, rfl⟩, rfl⟩

theorem flatten_length_of {n : Nat} : ∀ {full : List Bytes}, (∀ f ∈ full, f.length = n) →
    full.flatten.length = full.length * n
  | [], _ => by simp
  | f :: fs, h => by
    have := flatten_length_of (n := n) (full := fs) (fun g hg => h g (List.mem_cons_of_mem _ hg))
    rw [List.flatten_cons, List.length_append, this, h f List.mem_cons_self, List.length_cons, Nat.succ_mul]
    omega

theorem Cord.room_rep {c : Cord} {bs : Bytes} (h : c.Rep bs) {k : Nat} (hk : 0 < k) :
    ∃ c' n base full lst, c.room k = some (c', n) ∧ c'.Chain base full lst ∧ c'.csize = c.csize ∧
      bs = full.flatten ++ lst ∧ n = min k (c'.csize - lst.length) ∧ 0 < n ∧
      (∀ a, c.head = some a → c'.head = some a) := by
  rcases h with ⟨h, rfl⟩ | ⟨base, full, lst, h, hl, rfl⟩
  · obtain ⟨m, hm⟩ := h.heap
    have hp := h.pos
    refine ⟨{ c with heap := List.replicate m none ++ [some (CordBlock.fresh c.csize)], head := some m, tail := some m, blockPt := 0 },
      min k c.csize, m, [], [], ?_, ?_, rfl, rfl, by simp, by omega, by simp [h.head]⟩
    · simp only [Cord.room, h.pt, Nat.sub_self, Nat.min_zero, if_true, Cord.allocateBlock, h.head, h.tail, hm,
        List.length_replicate]
    · exact ⟨hp, by simp, ⟨List.replicate c.csize none, none, by simp, by simp [mkChain, CordBlock.fresh]⟩, rfl, by simp,
        rfl, by simp [h.len]⟩
  · obtain ⟨junk, nx, hj, hh⟩ := h.heap
    have hp := h.pos
    by_cases hfull : lst.length = c.csize
    · have hj0 : junk = [] := by
        have : junk.length = 0 := by omega
        exact List.length_eq_zero_iff.1 this
      subst hj0
      have hlen : (List.replicate base (none : Option CordBlock) ++ mkChain base full).length = base + full.length := by
        simp [mkChain_length]
      have hb : c.heap.block (some (base + full.length)) = some ⟨lst.map some, nx⟩ := by
        rw [hh, ← hlen, block_at]; simp
      have hhl : c.heap.length = base + full.length + 1 := by
        rw [hh, List.length_append, hlen]; rfl
      refine ⟨{ c with heap := List.replicate base none ++ mkChain base (full ++ [lst]) ++ [some (CordBlock.fresh c.csize)], tail := some (base + full.length + 1), blockPt := 0 },
        min k c.csize, base, full ++ [lst], [], ?_, ?_, rfl, by simp, by simp, by omega, fun _ => id⟩
      · have hset : (c.heap ++ [some (CordBlock.fresh c.csize)]).set (base + full.length)
            (some ⟨lst.map some, some (base + full.length + 1)⟩) =
            List.replicate base none ++ mkChain base (full ++ [lst]) ++ [some (CordBlock.fresh c.csize)] := by
          rw [hh, ← hlen, mkChain_append]
          simp [mkChain_length]
        have e : c.csize - c.blockPt = 0 := by rw [h.pt]; omega
        have hal : c.allocateBlock = some { c with heap := List.replicate base none ++ mkChain base (full ++ [lst]) ++ [some (CordBlock.fresh c.csize)], tail := some (base + full.length + 1), blockPt := 0 } := by
          unfold Cord.allocateBlock
          rw [if_pos (by rw [h.pt]; exact hfull)]
          simp only [h.head, h.tail, hb, hhl]
          rw [if_pos (by rw [h.pt]; simp), hset]
        simp only [Cord.room, e, Nat.min_zero, if_true, hal]
      · refine ⟨hp, ?_, ⟨List.replicate c.csize none, none, by simp, by simp [CordBlock.fresh]⟩, h.head, ?_, rfl, ?_⟩
        · intro f hf
          rcases List.mem_append.1 hf with hf | hf
          · exact h.sizes f hf
          · simp at hf; subst hf; exact hfull
        · simp; omega
        · show c.len = _
          rw [h.len]; simp
    · refine ⟨c, min k (c.csize - lst.length), base, full, lst, ?_, h, rfl, rfl, rfl, by omega, fun _ => id⟩
      unfold Cord.room
      rw [h.pt, if_neg (by omega)]

theorem Cord.put_rep {c : Cord} {base : Nat} {full : List Bytes} {lst : Bytes} (h : c.Chain base full lst)
    {w : Bytes} (hw : w.length ≤ c.csize - lst.length) :
    ∃ t b b', c.tail = some t ∧ c.heap.block (some t) = some b ∧ b.put c.blockPt w = some b' ∧
      Cord.Chain { c with heap := c.heap.store t b', blockPt := c.blockPt + w.length, len := c.len + w.length }
        base full (lst ++ w) := by
  obtain ⟨junk, nx, hj, hh⟩ := h.heap
  have hlen : (List.replicate base (none : Option CordBlock) ++ mkChain base full).length = base + full.length := by
    simp [mkChain_length]
  refine ⟨base + full.length, ⟨lst.map some ++ junk, nx⟩, ⟨(lst ++ w).map some ++ junk.drop w.length, nx⟩, h.tail, ?_, ?_, ?_⟩
  · rw [hh, ← hlen, block_at]
  · rw [h.pt, put_prefix _ _ _ _ (by omega)]
  · refine ⟨h.pos, h.sizes, ⟨junk.drop w.length, nx, ?_, ?_⟩, h.head, h.tail, ?_, ?_⟩
    · simp; omega
    · show c.heap.set _ _ = _
      rw [hh, ← hlen]
      simp
    · simp [h.pt]
    · show c.len + w.length = _
      rw [h.len]; simp; omega

/-- `write` succeeds and appends. -/
theorem Cord.write_rep {c : Cord} {bs : Bytes} (h : c.Rep bs) (v : Bytes) :
    ∃ c', c.write v = some c' ∧ c'.Rep (bs ++ v) ∧ c'.csize = c.csize ∧
      (∀ a, c.head = some a → c'.head = some a) := by
  generalize hk : v.length = k
  induction k using Nat.strongRecOn generalizing c bs v with
  | ind k ih =>
    rw [Cord.write]
    by_cases hv : v = []
    · subst hv
      rw [dif_pos rfl]
      exact ⟨c, rfl, by simpa using h, rfl, fun _ => id⟩
    · rw [dif_neg hv]
      have hpos : 0 < v.length := List.length_pos_iff.2 hv
      obtain ⟨c1, n, base, full, lst, hr, hc1, hcs, hbs, hn, hn0, hhd⟩ := Cord.room_rep h hpos
      rw [hr]
      simp only
      have hwl : (v.take n).length = n := by simp; omega
      obtain ⟨t, b, b', ht, hb, hp, hch⟩ := Cord.put_rep hc1 (w := v.take n) (by rw [hwl]; omega)
      simp only [ht, hb, hp]
      rw [hwl] at hch
      have hrep : Cord.Rep { c1 with heap := c1.heap.store t b', blockPt := c1.blockPt + n, len := c1.len + n }
          (bs ++ v.take n) := by
        refine .inr ⟨base, full, lst ++ v.take n, hch, ?_, by rw [hbs, List.append_assoc]⟩
        intro hnil
        have := congrArg List.length hnil
        rw [List.length_append, hwl] at this
        simp at this
        omega
      by_cases hlt : n < v.length
      · rw [dif_pos hlt, dif_neg (by omega)]
        have hl : (v.drop n).length < k := by simp; omega
        obtain ⟨c', h1, h2, h3, h4⟩ := ih _ hl hrep (v.drop n) rfl
        refine ⟨c', ?_, ?_, ?_, fun a ha => h4 a (hhd a ha)⟩
        · simp only [ht] at h1 ⊢; exact h1
        · rw [List.append_assoc, List.take_append_drop] at h2; exact h2
        · rw [h3]; exact hcs
      · rw [dif_neg hlt]
        refine ⟨_, rfl, ?_, hcs, hhd⟩
        have : v.take n = v := List.take_of_length_le (by omega)
        rw [this] at hrep
        simp only [ht, this] at hrep ⊢
        exact hrep

/-- A chain to walk: the first block is at address `b`. -/
structure Walk (heap : CordHeap) (tail : Option Nat) (csize pt : Nat) (b : Nat) (full : List Bytes) (lst : Bytes) : Prop where
  sizes : ∀ f ∈ full, f.length = csize
  heap : ∃ pre junk nx, pre.length = b ∧ heap = pre ++ mkChain b full ++ [some ⟨lst.map some ++ junk, nx⟩]
  tail : tail = some (b + full.length)
  pt : pt = lst.length

theorem Cord.Chain.walk {c : Cord} {base : Nat} {full : List Bytes} {lst : Bytes} (h : c.Chain base full lst) :
    Walk c.heap c.tail c.csize c.blockPt base full lst := by
  obtain ⟨junk, nx, _, hh⟩ := h.heap
  exact ⟨h.sizes, ⟨_, junk, nx, by simp, hh⟩, h.tail, h.pt⟩

theorem Walk.last {heap tail csize pt b lst} (h : Walk heap tail csize pt b [] lst) :
    tail = some b ∧ ∃ blk, heap.block (some b) = some blk ∧ blk.read pt = some lst := by
  obtain ⟨pre, junk, nx, rfl, hh⟩ := h.heap
  refine ⟨by simpa using h.tail, ⟨lst.map some ++ junk, nx⟩, ?_, ?_⟩
  · rw [hh]; simp only [mkChain, List.append_nil]; exact block_at _ _ _
  · rw [h.pt]; exact read_prefix _ _ _

theorem Walk.next {heap tail csize pt b f fs lst} (h : Walk heap tail csize pt b (f :: fs) lst) :
    some b ≠ tail ∧ f.length = csize ∧ (∃ blk, heap.block (some b) = some blk ∧ blk.read csize = some f ∧
      blk.link csize = some (b + 1) ∧ blk.data.length = csize) ∧ Walk heap tail csize pt (b + 1) fs lst := by
  obtain ⟨pre, junk, nx, rfl, hh⟩ := h.heap
  have hf := h.sizes f List.mem_cons_self
  refine ⟨?_, hf, ⟨⟨f.map some, some (pre.length + 1)⟩, ?_, ?_, ?_, by simpa using hf⟩, ?_⟩
  · rw [h.tail]; simp
  · rw [hh]
    simp only [mkChain, List.append_assoc, List.cons_append]
    exact block_at _ _ _
  · rw [← hf]; exact read_full _ _
  · simp [CordBlock.link, hf]
  · refine ⟨fun g hg => h.sizes g (List.mem_cons_of_mem _ hg),
      ⟨pre ++ [some ⟨f.map some, some (pre.length + 1)⟩], junk, nx, by simp, ?_⟩, ?_, h.pt⟩
    · rw [hh]; simp [mkChain]
    · rw [h.tail]; simp; omega

theorem Walk.length {heap tail csize pt b full lst} (h : Walk heap tail csize pt b full lst) :
    full.length < heap.length := by
  obtain ⟨pre, junk, nx, rfl, hh⟩ := h.heap
  rw [hh]; simp [mkChain_length]; omega

theorem Cord.applyLoop_walk {σ : Type} (c : Cord) (visitor : σ → Bytes → σ × Bool) (full : List Bytes) (lst : Bytes) :
    ∀ (b fuel : Nat) (s : σ), Walk c.heap c.tail c.csize c.blockPt b full lst → full.length < fuel →
      Cord.applyLoop c visitor fuel (some b) s = some (visitAll visitor (full ++ [lst]) s) := by
  induction full with
  | nil =>
    intro b fuel s h hf
    obtain ⟨ht, blk, h1, h2⟩ := h.last
    cases fuel with
    | zero => simp at hf
    | succ fuel =>
      simp only [Cord.applyLoop, ht, ne_eq, not_true, if_false, h1, h2, List.nil_append, visitAll]
      cases hv : visitor s lst with | mk s' r => cases r <;> rfl
  | cons f fs ih =>
    intro b fuel s h hf
    obtain ⟨ht, _, ⟨blk, h1, h2, h3, _⟩, hw⟩ := h.next
    cases fuel with
    | zero => simp at hf
    | succ fuel =>
      simp only [Cord.applyLoop, ne_eq, ht, not_false_eq_true, if_true, h1, h2, h3, List.cons_append, visitAll]
      cases hv : (visitor s f).2
      · simp
      · simp only [Bool.not_true, Bool.false_eq_true, if_false, if_true]
        exact ih (b + 1) fuel _ hw (by simp at hf; omega)

theorem Cord.appendToLoop_walk (c : Cord) (full : List Bytes) (lst : Bytes) :
    ∀ (b fuel : Nat) (s : Bytes), Walk c.heap c.tail c.csize c.blockPt b full lst → full.length < fuel →
      Cord.appendToLoop c fuel (some b) s = some (s ++ (full.flatten ++ lst)) := by
  induction full with
  | nil =>
    intro b fuel s h hf
    obtain ⟨ht, blk, h1, h2⟩ := h.last
    cases fuel with
    | zero => simp at hf
    | succ fuel =>
      simp only [Cord.appendToLoop, ht, ne_eq, not_true, if_false, h1, h2, List.flatten_nil, List.nil_append]
  | cons f fs ih =>
    intro b fuel s h hf
    obtain ⟨ht, _, ⟨blk, h1, h2, h3, _⟩, hw⟩ := h.next
    cases fuel with
    | zero => simp at hf
    | succ fuel =>
      simp only [Cord.appendToLoop, ne_eq, ht, not_false_eq_true, if_true, h1, h2, h3]
      rw [ih (b + 1) fuel _ hw (by simp at hf; omega)]
      simp

theorem Cord.Rep.size {c : Cord} {bs : Bytes} (h : c.Rep bs) : c.len = bs.length := by
  rcases h with ⟨h, rfl⟩ | ⟨_, _, _, h, _, rfl⟩
  · exact h.len
  · exact h.len

theorem Cord.appendTo_rep {c : Cord} {bs : Bytes} (h : c.Rep bs) (s : Bytes) :
    c.appendTo s = some (s ++ bs, bs.length) := by
  unfold Cord.appendTo
  rcases h with ⟨h, rfl⟩ | ⟨base, full, lst, h, hl, rfl⟩
  · simp [Cord.empty, h.len]
  · have hne : c.len ≠ 0 := by
      rw [h.len]; intro e
      have := List.length_eq_zero_iff.1 e
      simp at this; exact hl this.2
    have := Cord.appendToLoop_walk c full lst base (c.heap.length + 1) s h.walk (Nat.lt_succ_of_lt h.walk.length)
    simp only [Cord.empty, hne, decide_false, Bool.false_eq_true, if_false, h.head, this]
    rw [h.len]

theorem Cord.applyTo_rep {c : Cord} {bs : Bytes} (h : c.Rep bs) :
    ∃ pieces : List Bytes, pieces.flatten = bs ∧ (∀ p ∈ pieces, p ≠ [] ∧ p.length ≤ c.csize) ∧
      ∀ (σ : Type) (visitor : σ → Bytes → σ × Bool) (s : σ), c.applyTo visitor s = some (visitAll visitor pieces s) := by
  rcases h with ⟨h, rfl⟩ | ⟨base, full, lst, h, hl, rfl⟩
  · exact ⟨[], rfl, by simp, fun σ v s => by simp [Cord.applyTo, Cord.empty, h.len, visitAll]⟩
  · refine ⟨full ++ [lst], by simp, ?_, fun σ v s => ?_⟩
    · intro p hp
      rcases List.mem_append.1 hp with hp | hp
      · have := h.sizes p hp
        have := h.pos
        exact ⟨fun e => by subst e; simp at *; omega, by omega⟩
      · simp at hp; subst hp
        obtain ⟨junk, _, hj, _⟩ := h.heap
        exact ⟨hl, by omega⟩
    · have hne : c.len ≠ 0 := by
        rw [h.len]; intro e
        have := List.length_eq_zero_iff.1 e
        simp at this; exact hl this.2
      have := Cord.applyLoop_walk c v full lst base (c.heap.length + 1) s h.walk (Nat.lt_succ_of_lt h.walk.length)
      simp only [Cord.applyTo, Cord.empty, hne, decide_false, Bool.false_eq_true, if_false, h.head, this]

theorem free_at (pre post : CordHeap) (b : CordBlock) :
    CordHeap.free (pre ++ some b :: post) (some pre.length) = some (pre ++ none :: post) := by
  simp [CordHeap.free]

theorem Cord.clearLoop_walk (c : Cord) (full : List Bytes) (last : CordBlock) :
    ∀ (pre : CordHeap) (fuel : Nat), (∀ f ∈ full, f.length = c.csize) → c.tail = some (pre.length + full.length) →
      full.length < fuel →
      Cord.clearLoop c fuel (pre ++ mkChain pre.length full ++ [some last]) (some pre.length) =
        some (pre ++ List.replicate (full.length + 1) none) := by
  induction full with
  | nil =>
    intro pre fuel _ ht hf
    cases fuel with
    | zero => simp at hf
    | succ fuel =>
      simp only [Cord.clearLoop, ht, List.length_nil, Nat.add_zero, ne_eq, not_true, if_false, mkChain, List.append_nil]
      rw [free_at]; rfl
  | cons f fs ih =>
    intro pre fuel hs ht hf
    cases fuel with
    | zero => simp at hf
    | succ fuel =>
      have hne : some pre.length ≠ c.tail := by rw [ht]; simp
      have hfl := hs f List.mem_cons_self
      simp only [Cord.clearLoop, ne_eq, hne, not_false_eq_true, if_true, mkChain, List.append_assoc, List.cons_append]
      rw [block_at]
      simp only [CordBlock.link, List.length_map, hfl, if_true, free_at]
      have := ih (pre ++ [none]) fuel (fun g hg => hs g (List.mem_cons_of_mem _ hg)) (by rw [ht]; simp; omega)
        (by simp at hf; omega)
      simp only [List.length_append, List.length_singleton, List.append_assoc, List.cons_append, List.nil_append] at this
      rw [this]
      rfl

theorem Cord.clear_rep {c : Cord} {bs : Bytes} (h : c.Rep bs) :
    ∃ c', c.clear = some c' ∧ c'.Nil ∧ c'.csize = c.csize := by
  rcases h with ⟨h, rfl⟩ | ⟨base, full, lst, h, hl, rfl⟩
  · refine ⟨{ c with blockPt := c.csize, len := 0, head := none, tail := none }, by simp [Cord.clear, h.head], ⟨h.pos, h.heap, rfl, rfl, rfl, rfl⟩, rfl⟩
  · obtain ⟨junk, nx, hj, hh⟩ := h.heap
    have := Cord.clearLoop_walk c full ⟨lst.map some ++ junk, nx⟩ (List.replicate base none) (c.heap.length + 1) h.sizes
      (by simpa using h.tail) (Nat.lt_succ_of_lt h.walk.length)
    rw [List.length_replicate, ← hh] at this
    refine ⟨{ c with heap := List.replicate base none ++ List.replicate (full.length + 1) none, blockPt := c.csize, len := 0, head := none, tail := none },
      ?_, ⟨h.pos, ⟨base + (full.length + 1), by rw [List.replicate_append_replicate]⟩, rfl, rfl, rfl, rfl⟩, rfl⟩
    simp only [Cord.clear, h.head, Option.isSome_some, if_true, this]

theorem Cord.appendCordLoop_walk (d : Cord) (full : List Bytes) (lst : Bytes) (hl : lst ≠ []) :
    ∀ (b fuel : Nat) (c : Cord) (bs : Bytes), c.Rep bs → c.csize = d.csize →
      Walk d.heap d.tail d.csize d.blockPt b full lst → full.length < fuel →
      ∃ c', Cord.appendCordLoop d fuel (some b) c = some c' ∧ c'.Rep (bs ++ (full.flatten ++ lst)) ∧ c'.csize = c.csize := by
  induction full with
  | nil =>
    intro b fuel c bs hc hs h hf
    obtain ⟨ht, blk, h1, h2⟩ := h.last
    have hpt : d.blockPt ≠ 0 := by rw [h.pt]; intro e; exact hl (List.length_eq_zero_iff.1 e)
    obtain ⟨c', w1, w2, w3, _⟩ := Cord.write_rep hc lst
    cases fuel with
    | zero => simp at hf
    | succ fuel =>
      refine ⟨c', ?_, by simpa using w2, w3⟩
      simp only [Cord.appendCordLoop, ht, ne_eq, not_true, if_false, hpt, h1, h2, w1]
  | cons f fs ih =>
    intro b fuel c bs hc hs h hf
    obtain ⟨ht, hfl, ⟨blk, h1, h2, h3, _⟩, hw⟩ := h.next
    cases fuel with
    | zero => simp at hf
    | succ fuel =>
      obtain ⟨c1, w1, w2, w3, _⟩ := Cord.write_rep hc f
      obtain ⟨c', a1, a2, a3⟩ := ih (b + 1) fuel c1 _ w2 (by rw [w3, hs]) hw (by simp at hf; omega)
      refine ⟨c', ?_, by simpa using a2, by rw [a3, w3]⟩
      rw [← hs] at h2 h3
      simp only [Cord.appendCordLoop, ne_eq, ht, not_false_eq_true, if_true, h1, h2, h3, w1]
      exact a1

theorem Cord.appendCord_rep {c d : Cord} {bs ds : Bytes} (hc : c.Rep bs) (hd : d.Rep ds) (hs : c.csize = d.csize) (hne : ds ≠ []) :
    ∃ c', c.appendCord d = some c' ∧ c'.Rep (bs ++ ds) ∧ c'.csize = c.csize := by
  rcases hd with ⟨_, rfl⟩ | ⟨base, full, lst, h, hl, rfl⟩
  · exact absurd rfl hne
  · unfold Cord.appendCord
    rw [h.head]
    exact Cord.appendCordLoop_walk d full lst hl base _ c bs hc hs h.walk (Nat.lt_succ_of_lt h.walk.length)

/-- Whenever appending a cord is defined, it concatenates. -/
theorem Cord.appendCord_sound {c d c' : Cord} {bs ds : Bytes} (hc : c.Rep bs) (hd : d.Rep ds)
    (h : c.appendCord d = some c') : c'.Rep (bs ++ ds) ∧ c'.csize = c.csize := by
  by_cases hs : c.csize = d.csize
  · by_cases hne : ds = []
    · exfalso
      subst hne
      rcases hd with ⟨hd, _⟩ | ⟨base, full, lst, _, hl, he⟩
      · have hp := hd.pos
        have hpt : d.blockPt ≠ 0 := by rw [hd.pt]; omega
        simp [Cord.appendCord, Cord.appendCordLoop, hd.head, hd.tail, hpt, CordHeap.block] at h
      · simp at he; exact hl he.2
    · obtain ⟨c'', h1, h2, h3⟩ := Cord.appendCord_rep hc hd hs hne
      rw [h1] at h; cases h; exact ⟨h2, h3⟩
  · rcases hd with ⟨hd, rfl⟩ | ⟨base, full, lst, hd, hl, rfl⟩
    · exfalso
      have hp := hd.pos
      have hpt : d.blockPt ≠ 0 := by rw [hd.pt]; omega
      simp [Cord.appendCord, Cord.appendCordLoop, hd.head, hd.tail, hpt, CordHeap.block] at h
    · unfold Cord.appendCord at h
      rw [hd.head] at h
      have hw := hd.walk
      cases full with
      | nil =>
        obtain ⟨ht, blk, h1, h2⟩ := hw.last
        have hpt : d.blockPt ≠ 0 := by rw [hw.pt]; intro e; exact hl (List.length_eq_zero_iff.1 e)
        simp only [Cord.appendCordLoop, ht, ne_eq, not_true, if_false, hpt, h1, h2] at h
        obtain ⟨c'', w1, w2, w3, _⟩ := Cord.write_rep hc lst
        rw [w1] at h; cases h
        exact ⟨by simpa using w2, w3⟩
      | cons f fs =>
        exfalso
        obtain ⟨ht, hfl, ⟨blk, h1, h2, h3, h4⟩, _⟩ := hw.next
        simp only [Cord.appendCordLoop, ne_eq, ht, not_false_eq_true, if_true, h1] at h
        cases hr : blk.read c.csize with
        | none => simp [hr] at h
        | some bytes =>
          simp only [hr] at h
          obtain ⟨c'', w1, w2, w3, _⟩ := Cord.write_rep hc bytes
          have : blk.link c.csize = none := by
            unfold CordBlock.link; rw [if_neg (by rw [h4]; exact hs)]
          simp [w1, this] at h

theorem Cord.made_rep {c : Cord} {bs : Bytes} (h : Cord.Made c bs) : c.Rep bs := by
  induction h with
  | new n h => exact Cord.new_rep h
  | write v _ hw ih =>
    obtain ⟨c'', h1, h2, _, _⟩ := Cord.write_rep ih v
    rw [h1] at hw; cases hw; exact h2
  | clear _ hc ih =>
    obtain ⟨c'', h1, h2, _⟩ := Cord.clear_rep ih
    rw [h1] at hc; cases hc; exact .inl ⟨h2, rfl⟩
  | append _ _ ha ih1 ih2 => exact (Cord.appendCord_sound ih1 ih2 ha).1

theorem Walk.drop {heap tail csize pt b full lst} (h : Walk heap tail csize pt b full lst) :
    ∀ i, i ≤ full.length → Walk heap tail csize pt (b + i) (full.drop i) lst
  | 0, _ => by simpa using h
  | i + 1, hi => by
    have ih := Walk.drop h i (by omega)
    rw [List.drop_eq_getElem_cons (by omega : i < full.length)] at ih
    exact ih.next.2.2.2

/-- The loop of `c << c` is still running after any number of steps when the cord has several blocks. -/
theorem Cord.appendSelfLoop_diverges (fuel : Nat) : ∀ (c : Cord) (base i : Nat) (full : List Bytes) (lst : Bytes),
    c.Chain base full lst → lst ≠ [] → i < full.length → Cord.appendSelfLoop fuel (some (base + i)) c = none := by
  induction fuel with
  | zero => intros; rfl
  | succ fuel ih =>
    intro c base i full lst h hl hi
    have hw := h.walk.drop i (by omega)
    rw [List.drop_eq_getElem_cons hi] at hw
    obtain ⟨ht, hfl, ⟨blk, h1, h2, h3, _⟩, _⟩ := hw.next
    obtain ⟨c', w1, w2, w3, w4⟩ := Cord.write_rep (.inr ⟨base, full, lst, h, hl, rfl⟩) full[i]
    have hh := w4 _ h.head
    rcases w2 with ⟨w2, _⟩ | ⟨base', full', lst', w2, hl', he⟩
    · rw [w2.head] at hh; cases hh
    · have hb : base' = base := by rw [w2.head] at hh; simpa using hh
      subst hb
      obtain ⟨junk, _, hj, _⟩ := h.heap
      obtain ⟨junk', _, hj', _⟩ := w2.heap
      have e := congrArg List.length he
      have hpos := h.pos
      have hl1 := List.length_pos_iff.2 hl
      have hl2 := List.length_pos_iff.2 hl'
      have hlen : full'.length = full.length + 1 := by
        rw [List.length_append, List.length_append, List.length_append, flatten_length_of h.sizes,
          flatten_length_of w2.sizes, w3, hfl] at e
        rw [w3] at hj'
        have h1 : (full.length + 1) * c.csize = full.length * c.csize + c.csize := by rw [Nat.succ_mul]
        by_cases hc : full'.length ≤ full.length
        · have := Nat.mul_le_mul_right c.csize hc
          omega
        · by_cases hc2 : full'.length = full.length + 1
          · exact hc2
          · exfalso
            have := Nat.mul_le_mul_right c.csize (show full.length + 2 ≤ full'.length by omega)
            have h3 : (full.length + 2) * c.csize = full.length * c.csize + 2 * c.csize := by rw [Nat.add_mul]
            omega
      have hw' := w2.walk.drop i (by omega)
      rw [List.drop_eq_getElem_cons (by omega : i < full'.length)] at hw'
      obtain ⟨_, _, ⟨blk', b1, _, b3, _⟩, _⟩ := hw'.next
      simp only [Cord.appendSelfLoop, ne_eq, ht, not_false_eq_true, if_true, h1, h2, w1, b1, Option.bind_some, b3]
      exact ih c' base' (i + 1) full' lst' w2 hl' (by omega)

/-! ## `ICord` -/

/-- The inline cord is the chain of full blocks `full` from the inline block on, then a block holding
`lst`. -/
structure ICord.Chain (c : ICord) (full : List Bytes) (lst : Bytes) : Prop where
  sizes : ∀ f ∈ full, f.length = c.csize
  heap : ∃ junk nx, lst.length + junk.length = c.csize ∧
    c.heap = mkChain 0 full ++ [some ⟨lst.map some ++ junk, nx⟩]
  head : c.head = some 0
  tail : c.tail = some full.length
  len : c.len = (full.flatten ++ lst).length

def ICord.Rep (c : ICord) (bs : Bytes) : Prop :=
  ∃ full lst, c.Chain full lst ∧ (lst = [] → full = []) ∧ bs = full.flatten ++ lst

theorem ICord.csize_pos (c : ICord) : 0 < c.csize := Nat.two_pow_pos _

theorem ICord.lengthMod_eq (c : ICord) : c.lengthMod = c.len % c.csize := by
  unfold ICord.lengthMod ICord.csize
  exact Nat.and_two_pow_sub_one_eq_mod _ _

theorem ICord.Chain.mod {c : ICord} {full : List Bytes} {lst : Bytes} (h : c.Chain full lst) :
    c.lengthMod = lst.length % c.csize := by
  rw [ICord.lengthMod_eq, h.len, List.length_append, flatten_length_of h.sizes, Nat.mul_comm,
    Nat.mul_add_mod]

theorem ICord.Chain.le {c : ICord} {full : List Bytes} {lst : Bytes} (h : c.Chain full lst) : lst.length ≤ c.csize := by
  obtain ⟨junk, _, hj, _⟩ := h.heap; omega

theorem ICord.new_rep (e : Nat) : (ICord.new e).Rep [] :=
  ⟨[], [], ⟨by simp, ⟨List.replicate (2 ^ e) none, none, by simp [ICord.csize, ICord.new], by simp [ICord.new, mkChain, CordBlock.fresh]⟩,
    rfl, rfl, rfl⟩, fun _ => rfl, rfl⟩

theorem ICord.room_rep {c : ICord} {bs : Bytes} (h : c.Rep bs) {k : Nat} (hk : 0 < k) :
    ∃ c' n full lst, c.room k = some (c', n) ∧ c'.Chain full lst ∧ c'.csize = c.csize ∧
      bs = full.flatten ++ lst ∧ n = min k (c'.csize - lst.length) ∧ 0 < n ∧ c.lengthMod = lst.length := by
  obtain ⟨full, lst, h, hl, rfl⟩ := h
  have hp := c.csize_pos
  have hle := h.le
  have hmod := h.mod
  obtain ⟨junk, nx, hj, hh⟩ := h.heap
  by_cases hfull : lst.length = c.csize
  · have hj0 : junk = [] := by
      have : junk.length = 0 := by omega
      exact List.length_eq_zero_iff.1 this
    subst hj0
    rw [hfull, Nat.mod_self] at hmod
    have hne : c.len ≠ 0 := by rw [h.len, List.length_append]; omega
    have hlen : (mkChain 0 full).length = full.length := mkChain_length _ _
    have hb : c.heap.block (some full.length) = some ⟨lst.map some, nx⟩ := by
      rw [hh, ← hlen, block_at]; simp
    have hhl : c.heap.length = full.length + 1 := by rw [hh, List.length_append, hlen]; rfl
    have hset : (c.heap ++ [some (CordBlock.fresh c.csize)]).set full.length
        (some ⟨lst.map some, some (full.length + 1)⟩) =
        mkChain 0 (full ++ [lst]) ++ [some (CordBlock.fresh c.csize)] := by
      rw [mkChain_append, hh]
      rw [List.append_assoc, List.append_assoc]
      simp only [List.cons_append, List.nil_append, List.append_nil, Nat.zero_add]
      exact set_at _ _ _ _ _ hlen
    have hal : c.allocateBlock = some { c with heap := mkChain 0 (full ++ [lst]) ++ [some (CordBlock.fresh c.csize)], tail := some (full.length + 1) } := by
      simp only [ICord.allocateBlock, ICord.isFull, hmod, hne, ne_eq, not_false_eq_true, and_self, decide_true, if_true,
        h.head, h.tail, hb, hhl, hset]
    refine ⟨{ c with heap := mkChain 0 (full ++ [lst]) ++ [some (CordBlock.fresh c.csize)], tail := some (full.length + 1) },
      min k c.csize, full ++ [lst], [], ?_, ?_, rfl, by simp, rfl, by omega, hmod⟩
    · simp only [ICord.room, hmod, hne, ne_eq, not_false_eq_true, and_self, if_true, hal]
    · refine ⟨?_, ⟨List.replicate c.csize none, none, by simp [ICord.csize], by simp [CordBlock.fresh]⟩, h.head, by simp, ?_⟩
      · intro f hf
        rcases List.mem_append.1 hf with hf | hf
        · exact h.sizes f hf
        · simp at hf; subst hf; exact hfull
      · show c.len = _
        rw [h.len]; simp
  · rw [Nat.mod_eq_of_lt (by omega)] at hmod
    refine ⟨c, min k (c.csize - lst.length), full, lst, ?_, h, rfl, rfl, rfl, by omega, hmod⟩
    unfold ICord.room
    rw [hmod]
    rw [if_neg]
    rintro ⟨h1, h2⟩
    have hz := hl (List.length_eq_zero_iff.1 h2)
    apply h1
    rw [h.len, hz]; simpa using h2

theorem ICord.put_rep {c : ICord} {full : List Bytes} {lst : Bytes} (h : c.Chain full lst)
    {w : Bytes} (hw : w.length ≤ c.csize - lst.length) :
    ∃ t b b', c.tail = some t ∧ c.heap.block (some t) = some b ∧ b.put lst.length w = some b' ∧
      ICord.Chain { c with heap := c.heap.store t b', len := c.len + w.length } full (lst ++ w) := by
  obtain ⟨junk, nx, hj, hh⟩ := h.heap
  have hlen : (mkChain 0 full).length = full.length := mkChain_length _ _
  refine ⟨full.length, ⟨lst.map some ++ junk, nx⟩, ⟨(lst ++ w).map some ++ junk.drop w.length, nx⟩, h.tail, ?_, ?_, ?_⟩
  · rw [hh, ← hlen, block_at]
  · rw [put_prefix _ _ _ _ (by omega)]
  · have hle := h.le
    refine ⟨h.sizes, ⟨junk.drop w.length, nx, ?_, ?_⟩, h.head, h.tail, ?_⟩
    · show _ = c.csize
      simp; omega
    · show c.heap.set _ _ = _
      rw [hh]
      exact set_at _ _ _ _ _ hlen
    · show c.len + w.length = _
      rw [h.len]; simp; omega

theorem ICord.write_rep {c : ICord} {bs : Bytes} (h : c.Rep bs) (v : Bytes) :
    ∃ c', c.write v = some c' ∧ c'.Rep (bs ++ v) ∧ c'.csize = c.csize := by
  generalize hk : v.length = k
  induction k using Nat.strongRecOn generalizing c bs v with
  | ind k ih =>
    rw [ICord.write]
    by_cases hv : v = []
    · subst hv
      rw [dif_pos rfl]
      exact ⟨c, rfl, by simpa using h, rfl⟩
    · rw [dif_neg hv]
      have hpos : 0 < v.length := List.length_pos_iff.2 hv
      obtain ⟨c1, n, full, lst, hr, hc1, hcs, hbs, hn, hn0, hm⟩ := ICord.room_rep h hpos
      rw [hr]
      simp only
      have hwl : (v.take n).length = n := by simp; omega
      obtain ⟨t, b, b', ht, hb, hp, hch⟩ := ICord.put_rep hc1 (w := v.take n) (by rw [hwl]; omega)
      rw [hm]
      simp only [ht, hb, hp]
      rw [hwl] at hch
      have hrep : ICord.Rep { c1 with heap := c1.heap.store t b', len := c1.len + n } (bs ++ v.take n) := by
        refine ⟨full, lst ++ v.take n, hch, ?_, by rw [hbs, List.append_assoc]⟩
        intro hnil
        have := congrArg List.length hnil
        rw [List.length_append, hwl] at this
        simp at this
        omega
      by_cases hlt : n < v.length
      · rw [dif_pos hlt, dif_neg (by omega)]
        have hl : (v.drop n).length < k := by simp; omega
        obtain ⟨c', h1, h2, h3⟩ := ih _ hl hrep (v.drop n) rfl
        refine ⟨c', ?_, ?_, ?_⟩
        · simp only [ht] at h1 ⊢; exact h1
        · rw [List.append_assoc, List.take_append_drop] at h2; exact h2
        · rw [h3]; exact hcs
      · rw [dif_neg hlt]
        refine ⟨_, rfl, ?_, hcs⟩
        have : v.take n = v := List.take_of_length_le (by omega)
        rw [this] at hrep
        simp only [ht] at hrep ⊢
        exact hrep

theorem ICord.Chain.walk {c : ICord} {full : List Bytes} {lst : Bytes} (h : c.Chain full lst) :
    Walk c.heap c.tail c.csize lst.length 0 full lst := by
  obtain ⟨junk, nx, _, hh⟩ := h.heap
  exact ⟨h.sizes, ⟨[], junk, nx, rfl, hh⟩, by simpa using h.tail, rfl⟩

theorem ICord.appendToLoop_walk (c : ICord) (full : List Bytes) (lst : Bytes)
    (hm : (if c.lengthMod = 0 then c.csize else c.lengthMod) = lst.length) :
    ∀ (b fuel : Nat) (s : Bytes), Walk c.heap c.tail c.csize lst.length b full lst → full.length < fuel →
      ICord.appendToLoop c fuel (some b) s = some (s ++ (full.flatten ++ lst)) := by
  induction full with
  | nil =>
    intro b fuel s h hf
    obtain ⟨ht, blk, h1, h2⟩ := h.last
    cases fuel with
    | zero => simp at hf
    | succ fuel =>
      simp only [ICord.appendToLoop, ht, ne_eq, not_true, if_false, h1, Option.bind_some, hm, h2, List.flatten_nil, List.nil_append]
  | cons f fs ih =>
    intro b fuel s h hf
    obtain ⟨ht, _, ⟨blk, h1, h2, h3, _⟩, hw⟩ := h.next
    cases fuel with
    | zero => simp at hf
    | succ fuel =>
      simp only [ICord.appendToLoop, ne_eq, ht, not_false_eq_true, if_true, h1, Option.bind_some, h2, ICord.next, if_false, h3]
      rw [ih (b + 1) fuel _ hw (by simp at hf; omega)]
      simp

theorem ICord.applyLoop_walk {σ : Type} (c : ICord) (visitor : σ → Bytes → σ × Bool) (full : List Bytes) (lst : Bytes) (last : Bytes)
    (hm : last = lst.take c.lengthMod) (hle : c.lengthMod ≤ lst.length) :
    ∀ (b fuel : Nat) (s : σ), Walk c.heap c.tail c.csize lst.length b full lst → full.length < fuel →
      ICord.applyLoop c visitor fuel (some b) s = some (visitAll visitor (full ++ [last]) s) := by
  induction full with
  | nil =>
    intro b fuel s h hf
    obtain ⟨ht, blk, h1, h2⟩ := h.last
    have h2' : blk.read c.lengthMod = some last := by
      obtain ⟨pre, junk, nx, rfl, hh⟩ := h.heap
      have hb : c.heap.block (some pre.length) = some ⟨lst.map some ++ junk, nx⟩ := by
        rw [hh]; simp only [mkChain, List.append_nil]; exact block_at _ _ _
      rw [hb] at h1; cases h1
      have := read_prefix (lst.take c.lengthMod) ((lst.drop c.lengthMod).map some ++ junk) nx
      rw [← List.append_assoc, ← List.map_append, List.take_append_drop] at this
      rw [hm, ← this]
      congr 1
      simp; omega
    cases fuel with
    | zero => simp at hf
    | succ fuel =>
      simp only [ICord.applyLoop, ht, ne_eq, not_true, if_false, h1, Option.bind_some, h2', List.nil_append, visitAll]
      cases hv : visitor s last with | mk s' r => cases r <;> rfl
  | cons f fs ih =>
    intro b fuel s h hf
    obtain ⟨ht, _, ⟨blk, h1, h2, h3, _⟩, hw⟩ := h.next
    cases fuel with
    | zero => simp at hf
    | succ fuel =>
      simp only [ICord.applyLoop, ne_eq, ht, not_false_eq_true, if_true, h1, Option.bind_some, h2, ICord.next, if_false, h3, List.cons_append, visitAll]
      cases hv : (visitor s f).2
      · simp
      · simp only [Bool.not_true, Bool.false_eq_true, if_false, if_true]
        exact ih (b + 1) fuel _ hw (by simp at hf; omega)

theorem ICord.Rep.size {c : ICord} {bs : Bytes} (h : c.Rep bs) : c.len = bs.length := by
  obtain ⟨_, _, h, _, rfl⟩ := h
  exact h.len

theorem ICord.appendTo_rep {c : ICord} {bs : Bytes} (h : c.Rep bs) (s : Bytes) :
    c.appendTo s = some (s ++ bs, bs.length) := by
  have hsz := h.size
  obtain ⟨full, lst, h, hl, rfl⟩ := h
  unfold ICord.appendTo
  by_cases hz : c.len = 0
  · have : full.flatten ++ lst = [] := List.length_eq_zero_iff.1 (by rw [← hsz, hz])
    simp [ICord.empty, hz, this]
  · have hle := h.le
    have hmod := h.mod
    have hlst : lst ≠ [] := by
      intro e; have := hl e; subst e; subst this; simp at hsz; exact hz hsz
    have hpos := List.length_pos_iff.2 hlst
    have hm : (if c.lengthMod = 0 then c.csize else c.lengthMod) = lst.length := by
      rw [hmod]
      by_cases e : lst.length = c.csize
      · rw [e, Nat.mod_self, if_pos rfl]
      · rw [Nat.mod_eq_of_lt (by omega), if_neg (by omega)]
    have := ICord.appendToLoop_walk c full lst hm 0 (c.heap.length + 1) s h.walk (Nat.lt_succ_of_lt h.walk.length)
    simp only [ICord.empty, hz, decide_false, Bool.false_eq_true, if_false, h.head, this]
    rw [h.len]

/-- What `applyTo` visits: the last block is visited with `lengthMod()` bytes. -/
theorem ICord.applyTo_rep {c : ICord} {bs : Bytes} (h : c.Rep bs) :
    ∃ pieces : List Bytes, pieces.flatten = bs.take (if bs.length % c.csize = 0 then bs.length - c.csize else bs.length) ∧
      (bs.length % c.csize ≠ 0 → ∀ p ∈ pieces, p ≠ []) ∧
      ∀ (σ : Type) (visitor : σ → Bytes → σ × Bool) (s : σ), c.applyTo visitor s = some (visitAll visitor pieces s) := by
  have hsz := h.size
  obtain ⟨full, lst, h, hl, rfl⟩ := h
  by_cases hz : c.len = 0
  · have : full.flatten ++ lst = [] := List.length_eq_zero_iff.1 (by rw [← hsz, hz])
    rw [this]
    exact ⟨[], by simp, by simp, fun σ v s => by simp [ICord.applyTo, ICord.empty, hz, visitAll]⟩
  · have hle := h.le
    have hmod := h.mod
    have hcp := c.csize_pos
    have hlst : lst ≠ [] := by
      intro e; have := hl e; subst e; subst this; simp at hsz; exact hz hsz
    have hpos := List.length_pos_iff.2 hlst
    have hmle : c.lengthMod ≤ lst.length := by rw [hmod]; exact Nat.mod_le _ _
    have hbm : (full.flatten ++ lst).length % c.csize = c.lengthMod := by
      rw [ICord.lengthMod_eq, h.len]
    refine ⟨full ++ [lst.take c.lengthMod], ?_, ?_, fun σ v s => ?_⟩
    · rw [hbm]
      by_cases e : lst.length = c.csize
      · rw [e, Nat.mod_self] at hmod
        rw [hmod, if_pos rfl]
        have : (full.flatten ++ lst).length - c.csize = full.flatten.length := by simp; omega
        rw [this]
        simp
      · rw [Nat.mod_eq_of_lt (by omega)] at hmod
        rw [hmod, if_neg (by omega), List.take_length, List.take_length]
        simp
    · intro hb p hp
      rcases List.mem_append.1 hp with hp | hp
      · have := h.sizes p hp
        intro e; subst e; simp at this; omega
      · simp at hp; subst hp
        intro e
        rw [hbm] at hb
        have := congrArg List.length e
        rw [List.length_take] at this
        simp only [List.length_nil] at this
        omega
    · have := ICord.applyLoop_walk c v full lst _ rfl hmle 0 (c.heap.length + 1) s h.walk (Nat.lt_succ_of_lt h.walk.length)
      simp only [ICord.applyTo, ICord.empty, hz, decide_false, Bool.false_eq_true, if_false, h.head, this]

theorem ICord.appendCordLoop_walk (d : ICord) (full : List Bytes) (lst : Bytes) (hm : d.lengthMod ≤ lst.length) :
    ∀ (b fuel : Nat) (c : ICord) (bs : Bytes), c.Rep bs → c.csize = d.csize →
      Walk d.heap d.tail d.csize lst.length b full lst → full.length < fuel →
      ∃ c', ICord.appendCordLoop d fuel (some b) c = some c' ∧ c'.Rep (bs ++ (full.flatten ++ lst.take d.lengthMod)) ∧
        c'.csize = c.csize := by
  induction full with
  | nil =>
    intro b fuel c bs hc hs h hf
    obtain ⟨ht, blk, h1, h2⟩ := h.last
    cases fuel with
    | zero => simp at hf
    | succ fuel =>
      by_cases hz : d.lengthMod = 0
      · refine ⟨c, by simp only [ICord.appendCordLoop, ht, ne_eq, not_true, if_false, hz, if_true], by simpa [hz] using hc, rfl⟩
      · have h2' : blk.read d.lengthMod = some (lst.take d.lengthMod) := by
          obtain ⟨pre, junk, nx, rfl, hh⟩ := h.heap
          have hb : d.heap.block (some pre.length) = some ⟨lst.map some ++ junk, nx⟩ := by
            rw [hh]; simp only [mkChain, List.append_nil]; exact block_at _ _ _
          rw [hb] at h1; cases h1
          have := read_prefix (lst.take d.lengthMod) ((lst.drop d.lengthMod).map some ++ junk) nx
          rw [← List.append_assoc, ← List.map_append, List.take_append_drop] at this
          rw [← this]
          congr 1
          simp; omega
        obtain ⟨c', w1, w2, w3⟩ := ICord.write_rep hc (lst.take d.lengthMod)
        refine ⟨c', ?_, by simpa using w2, w3⟩
        simp only [ICord.appendCordLoop, ht, ne_eq, not_true, if_false, hz, h1, Option.bind_some, h2', w1]
  | cons f fs ih =>
    intro b fuel c bs hc hs h hf
    obtain ⟨ht, hfl, ⟨blk, h1, h2, h3, _⟩, hw⟩ := h.next
    cases fuel with
    | zero => simp at hf
    | succ fuel =>
      obtain ⟨c1, w1, w2, w3⟩ := ICord.write_rep hc f
      obtain ⟨c', a1, a2, a3⟩ := ih (b + 1) fuel c1 _ w2 (by rw [w3, hs]) hw (by simp at hf; omega)
      refine ⟨c', ?_, by simpa using a2, by rw [a3, w3]⟩
      rw [← hs] at h2 h3
      simp only [ICord.appendCordLoop, ne_eq, ht, not_false_eq_true, if_true, h1, h2, h3, w1]
      exact a1

theorem ICord.appendCord_rep {c d : ICord} {bs ds : Bytes} (hc : c.Rep bs) (hd : d.Rep ds) (hs : c.csize = d.csize) :
    ∃ c', c.appendCord d = some c' ∧
      c'.Rep (bs ++ ds.take (if ds.length % d.csize = 0 then ds.length - d.csize else ds.length)) := by
  have hsz := hd.size
  obtain ⟨full, lst, h, hl, rfl⟩ := hd
  have hle := h.le
  have hmod := h.mod
  have hcp := d.csize_pos
  have hmle : d.lengthMod ≤ lst.length := by rw [hmod]; exact Nat.mod_le _ _
  have hbm : (full.flatten ++ lst).length % d.csize = d.lengthMod := by
    rw [ICord.lengthMod_eq, h.len]
  obtain ⟨c', a1, a2, _⟩ := ICord.appendCordLoop_walk d full lst hmle 0 (d.heap.length + 1) c bs hc hs h.walk
    (Nat.lt_succ_of_lt h.walk.length)
  refine ⟨c', by unfold ICord.appendCord; rw [h.head]; exact a1, ?_⟩
  have e : full.flatten ++ lst.take d.lengthMod =
      (full.flatten ++ lst).take (if (full.flatten ++ lst).length % d.csize = 0 then (full.flatten ++ lst).length - d.csize else (full.flatten ++ lst).length) := by
    rw [hbm]
    by_cases e : lst.length = d.csize
    · rw [e, Nat.mod_self] at hmod
      rw [hmod, if_pos rfl]
      have : (full.flatten ++ lst).length - d.csize = full.flatten.length := by simp; omega
      rw [this]
      simp
    · rw [Nat.mod_eq_of_lt (by omega)] at hmod
      by_cases hz : lst.length = 0
      · have h0 := List.length_eq_zero_iff.1 hz
        have h1 := hl h0
        simp [h0, h1]
      · rw [hmod, if_neg hz, List.take_length, List.take_length]
  rw [← e]; exact a2

theorem ICord.clearLoop_walk (c : ICord) (full : List Bytes) (last : CordBlock) :
    ∀ (pre : CordHeap) (fuel : Nat), (∀ f ∈ full, f.length = c.csize) → c.tail = some (pre.length + full.length) →
      full.length < fuel →
      ICord.clearLoop c fuel (pre ++ mkChain pre.length full ++ [some last]) (some pre.length) =
        some (pre ++ List.replicate (full.length + 1) none) := by
  induction full with
  | nil =>
    intro pre fuel _ ht hf
    cases fuel with
    | zero => simp at hf
    | succ fuel =>
      simp only [ICord.clearLoop, ht, List.length_nil, Nat.add_zero, ne_eq, not_true, if_false, mkChain, List.append_nil]
      rw [free_at]; rfl
  | cons f fs ih =>
    intro pre fuel hs ht hf
    cases fuel with
    | zero => simp at hf
    | succ fuel =>
      have hne : some pre.length ≠ c.tail := by rw [ht]; simp
      have hfl := hs f List.mem_cons_self
      simp only [ICord.clearLoop, ICord.next, ne_eq, hne, not_false_eq_true, if_true, if_false, mkChain, List.append_assoc, List.cons_append]
      rw [block_at]
      simp only [CordBlock.link, List.length_map, hfl, if_true, free_at]
      have := ih (pre ++ [none]) fuel (fun g hg => hs g (List.mem_cons_of_mem _ hg)) (by rw [ht]; simp; omega)
        (by simp at hf; omega)
      simp only [List.length_append, List.length_singleton, List.append_assoc, List.cons_append, List.nil_append] at this
      rw [this]
      rfl

/-- `clear` frees all blocks but the inline one and forgets that one. -/
theorem ICord.clear_rep {c : ICord} {bs : Bytes} (h : c.Rep bs) :
    ∃ c' b n, c.clear = some c' ∧ c'.len = 0 ∧ c'.head = none ∧ c'.tail = none ∧
      c'.heap = some b :: List.replicate n none := by
  obtain ⟨full, lst, h, hl, rfl⟩ := h
  obtain ⟨junk, nx, hj, hh⟩ := h.heap
  cases full with
  | nil =>
    refine ⟨{ c with len := 0, head := none, tail := none }, ⟨lst.map some ++ junk, nx⟩, 0, ?_, rfl, rfl, rfl, ?_⟩
    · have ht : c.tail = some 0 := by simpa using h.tail
      simp [ICord.clear, ICord.next, h.head, ht]
    · show c.heap = _
      rw [hh]; rfl
  | cons f fs =>
    have hs := h.sizes
    have hfl := hs f List.mem_cons_self
    have ht := h.tail
    have hh' : c.heap = [some ⟨f.map some, some 1⟩] ++ mkChain 1 fs ++ [some ⟨lst.map some ++ junk, nx⟩] := by
      rw [hh]; rfl
    have hw := ICord.clearLoop_walk c fs ⟨lst.map some ++ junk, nx⟩ [some ⟨f.map some, some 1⟩] (c.heap.length + 1)
      (fun g hg => hs g (List.mem_cons_of_mem _ hg)) (by rw [ht]; simp; omega) (by rw [hh']; simp [mkChain_length]; omega)
    simp only [List.length_singleton] at hw
    rw [← hh'] at hw
    have hn : c.next c.heap (some 0) = some (some 1) := by
      have hne : some 0 ≠ c.tail := by rw [ht]; simp
      have hb : c.heap.block (some 0) = some ⟨f.map some, some 1⟩ := by rw [hh']; rfl
      simp [ICord.next, hne, hb, CordBlock.link, hfl]
    refine ⟨{ c with heap := [some ⟨f.map some, some 1⟩] ++ List.replicate (fs.length + 1) none, len := 0, head := none, tail := none },
      ⟨f.map some, some 1⟩, fs.length + 1, ?_, rfl, rfl, rfl, rfl⟩
    simp only [ICord.clear, h.head, hn, Option.isSome_some, if_true, hw]

theorem ICord.written_rep {c : ICord} {bs : Bytes} (h : ICord.Written c bs) : c.Rep bs := by
  induction h with
  | new e => exact ICord.new_rep e
  | write v _ hw ih =>
    obtain ⟨c'', h1, h2, _⟩ := ICord.write_rep ih v
    rw [h1] at hw; cases hw; exact h2

end Nebula
