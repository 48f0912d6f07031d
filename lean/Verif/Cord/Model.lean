import Verif.Base
/-!
# `Cord` and `ICord`

Model of `src/common/base/Cord.h`, `src/common/base/Cord.cpp` and `src/common/base/ICord.h`.

Memory is explicit: every `malloc`ed block has an address, holds bytes that start uninitialised, and
the cell after the content that links to the next block. Reading uninitialised or freed memory, reading
or writing outside a block, following a link that was never stored and running for ever are the outcome
`none`. `size_t`/`int32_t` counters are naturals (no wrap-around).
-/
namespace Nebula

/-- One allocated block: `content` bytes (`none`: not yet written) and the pointer cell behind them
(`none`: not yet written). -/
structure CordBlock where
  data : List (Option UInt8)
  next : Option Nat
deriving DecidableEq, Repr

/-- A heap: `none` at an address means the block there was freed. -/
abbrev CordHeap := List (Option CordBlock)

/-- Dereferencing a block pointer: `none` for null, freed or unknown addresses. -/
def CordHeap.block (h : CordHeap) (p : Option Nat) : Option CordBlock :=
  match p with
  | none => none
  | some a => match h[a]? with
    | some (some b) => some b
    | _ => none

/-- `n` bytes from the start of a block; reading past the content or an unwritten byte is undefined. -/
def CordBlock.read (b : CordBlock) (n : Nat) : Option Bytes :=
  if n ≤ b.data.length then (b.data.take n).mapM id else none

/-- `memcpy(&next, p + offset, sizeof(char*))`: defined only where the pointer cell is. -/
def CordBlock.link (b : CordBlock) (offset : Nat) : Option Nat :=
  if offset = b.data.length then b.next else none

/-- `memcpy(p + pos, v, v.size())`. -/
def CordBlock.put (b : CordBlock) (pos : Nat) (v : Bytes) : Option CordBlock :=
  if pos + v.length ≤ b.data.length then
    some { b with data := b.data.take pos ++ v.map some ++ b.data.drop (pos + v.length) }
  else none

/-- `malloc` of a block with `c` content bytes. -/
def CordBlock.fresh (c : Nat) : CordBlock := ⟨List.replicate c none, none⟩

/-- Replacing the block at a live address. -/
def CordHeap.store (h : CordHeap) (a : Nat) (b : CordBlock) : CordHeap := h.set a (some b)

/-- `free(p)`: freeing null is harmless, freeing twice is undefined. -/
def CordHeap.free (h : CordHeap) (p : Option Nat) : Option CordHeap :=
  match p with
  | none => some h
  | some a => match h[a]? with
    | some (some _) => some (h.set a none)
    | _ => none

/-! ## `Cord` -/

/-- `Cord` (Cord.h:62-70). `csize` is `blockContentSize_` (block size minus a pointer). -/
structure Cord where
  csize : Nat
  blockPt : Nat
  len : Nat
  head : Option Nat
  tail : Option Nat
  heap : CordHeap
deriving DecidableEq, Repr

/-- Constructor (Cord.cpp:12-16): `blockPt_` starts at the end of a non-existing block. -/
def Cord.new (csize : Nat) : Cord := ⟨csize, csize, 0, none, none, []⟩

/-- `allocateBlock` (Cord.cpp:24-39). The `DCHECK` is part of it. -/
def Cord.allocateBlock (c : Cord) : Option Cord :=
  if c.blockPt = c.csize then
    let blk := c.heap.length
    let heap := c.heap ++ [some (CordBlock.fresh c.csize)]
    let head := match c.head with | none => some blk | some a => some a
    match c.tail with
    | none => some { c with heap := heap, head := head, tail := some blk, blockPt := 0 }
    | some t =>
      match c.heap.block (some t) with
      | none => none
      | some b =>
        if c.blockPt = b.data.length then
          some { c with heap := heap.set t (some { b with next := some blk }), head := head,
                        tail := some blk, blockPt := 0 }
        else none
  else none

/-- `size` (Cord.cpp:42-44). -/
def Cord.size (c : Cord) : Nat := c.len

/-- `empty` (Cord.cpp:47-49). -/
def Cord.empty (c : Cord) : Bool := c.len = 0

/-- The loop of `clear` (Cord.cpp:57-68). The first argument bounds the number of steps; running out of
steps means the loop does not end. -/
def Cord.clearLoop (c : Cord) : Nat → CordHeap → Option Nat → Option CordHeap
  | 0, _, _ => none
  | fuel + 1, h, p =>
    if p ≠ c.tail then
      match h.block p with
      | none => none
      | some b => match b.link c.csize with
        | none => none
        | some n => match h.free p with
          | none => none
          | some h' => Cord.clearLoop c fuel h' (some n)
    else h.free p

/-- `clear` (Cord.cpp:53-75). -/
def Cord.clear (c : Cord) : Option Cord :=
  if c.head.isSome then
    match Cord.clearLoop c (c.heap.length + 1) c.heap c.head with
    | none => none
    | some h => some { c with heap := h, blockPt := c.csize, len := 0, head := none, tail := none }
  else some { c with blockPt := c.csize, len := 0, head := none, tail := none }

/-- The loop of `applyTo` (Cord.cpp:83-95); the visitor gets its state and the bytes of a block. -/
def Cord.applyLoop {σ : Type} (c : Cord) (visitor : σ → Bytes → σ × Bool) :
    Nat → Option Nat → σ → Option (σ × Bool)
  | 0, _, _ => none
  | fuel + 1, p, s =>
    if p ≠ c.tail then
      match c.heap.block p with
      | none => none
      | some b => match b.read c.csize with
        | none => none
        | some bytes =>
          let r := visitor s bytes
          if !r.2 then some (r.1, false)
          else match b.link c.csize with
            | none => none
            | some n => Cord.applyLoop c visitor fuel (some n) r.1
    else match c.heap.block c.tail with
      | none => none
      | some b => match b.read c.blockPt with
        | none => none
        | some bytes => some (visitor s bytes)

/-- `applyTo` (Cord.cpp:78-97). -/
def Cord.applyTo {σ : Type} (c : Cord) (visitor : σ → Bytes → σ × Bool) (s : σ) : Option (σ × Bool) :=
  if c.empty then some (s, true) else Cord.applyLoop c visitor (c.heap.length + 1) c.head s

/-- The loop of `appendTo` (Cord.cpp:105-115). -/
def Cord.appendToLoop (c : Cord) : Nat → Option Nat → Bytes → Option Bytes
  | 0, _, _ => none
  | fuel + 1, p, str =>
    if p ≠ c.tail then
      match c.heap.block p with
      | none => none
      | some b => match b.read c.csize with
        | none => none
        | some bytes => match b.link c.csize with
          | none => none
          | some n => Cord.appendToLoop c fuel (some n) (str ++ bytes)
    else match c.heap.block c.tail with
      | none => none
      | some b => match b.read c.blockPt with
        | none => none
        | some bytes => some (str ++ bytes)

/-- `appendTo` (Cord.cpp:100-118): the new string and the returned size. -/
def Cord.appendTo (c : Cord) (str : Bytes) : Option (Bytes × Nat) :=
  if c.empty then some (str, 0)
  else match Cord.appendToLoop c (c.heap.length + 1) c.head str with
    | none => none
    | some s => some (s, c.len)

/-- `str` (Cord.cpp:121-127). -/
def Cord.str (c : Cord) : Option Bytes := (c.appendTo []).map (·.1)

/-- The block allocation inside `write` (Cord.cpp:135-141): the number of bytes this call writes. -/
def Cord.room (c : Cord) (len : Nat) : Option (Cord × Nat) :=
  let n := min len (c.csize - c.blockPt)
  if n = 0 then match c.allocateBlock with
    | none => none
    | some c' => some (c', min len c'.csize)
  else some (c, n)

/-- `write` (Cord.cpp:130-151). A block size that leaves no room makes the code recurse for ever. -/
def Cord.write (c : Cord) (v : Bytes) : Option Cord :=
  if hv : v = [] then some c
  else match c.room v.length with
    | none => none
    | some (c, n) =>
      match c.tail with
      | none => none
      | some t => match c.heap.block (some t) with
        | none => none
        | some b => match b.put c.blockPt (v.take n) with
          | none => none
          | some b' =>
            let c' := { c with heap := c.heap.store t b', blockPt := c.blockPt + n, len := c.len + n }
            if h : n < v.length then
              if hn : n = 0 then none else Cord.write c' (v.drop n)
            else some c'
termination_by v.length
decreasing_by
  have : 0 < v.length := List.length_pos_iff.2 hv
  simp; omega

/-- The loop of `operator<<(const Cord&)` (Cord.cpp:228-242) for another object `rhs`. Blocks of `rhs`
are read with this object's block size. -/
def Cord.appendCordLoop (rhs : Cord) : Nat → Option Nat → Cord → Option Cord
  | 0, _, _ => none
  | fuel + 1, p, c =>
    if p ≠ rhs.tail then
      match rhs.heap.block p with
      | none => none
      | some b => match b.read c.csize with
        | none => none
        | some bytes => match c.write bytes with
          | none => none
          | some c' => match b.link c.csize with
            | none => none
            | some n => Cord.appendCordLoop rhs fuel (some n) c'
    else if rhs.blockPt = 0 then some c
    else match rhs.heap.block rhs.tail with
      | none => none
      | some b => match b.read rhs.blockPt with
        | none => none
        | some bytes => c.write bytes

/-- `operator<<(const Cord&)` (Cord.cpp:228-242), `rhs` another object. -/
def Cord.appendCord (c rhs : Cord) : Option Cord :=
  Cord.appendCordLoop rhs (rhs.heap.length + 1) rhs.head c

/-- The loop of `c << c` (Cord.cpp:228-242): the tail it waits for moves with every write. `none` after
all steps means that it is still running. -/
def Cord.appendSelfLoop : Nat → Option Nat → Cord → Option Cord
  | 0, _, _ => none
  | fuel + 1, p, c =>
    if p ≠ c.tail then
      match c.heap.block p with
      | none => none
      | some b => match b.read c.csize with
        | none => none
        | some bytes => match c.write bytes with
          | none => none
          | some c' => match (c'.heap.block p).bind (·.link c'.csize) with
            | none => none
            | some n => Cord.appendSelfLoop fuel (some n) c'
    else match c.heap.block c.tail with
      | none => none
      | some b => match b.read c.blockPt with
        | none => none
        | some bytes => c.write bytes

/-! ## `ICord` -/

/-- `ICord<kBlockContentSize>` (ICord.h:225-238) with `kBlockContentSize = 2 ^ exp` (ICord.h:16-17).
Address 0 is the inline block. -/
structure ICord where
  exp : Nat
  len : Nat
  head : Option Nat
  tail : Option Nat
  heap : CordHeap
deriving DecidableEq, Repr

/-- `kBlockContentSize`. -/
def ICord.csize (c : ICord) : Nat := 2 ^ c.exp

/-- Constructor (ICord.h:18). -/
def ICord.new (exp : Nat) : ICord := ⟨exp, 0, some 0, some 0, [some (CordBlock.fresh (2 ^ exp))]⟩

/-- `size` (ICord.h:24-26). -/
def ICord.size (c : ICord) : Nat := c.len

/-- `empty` (ICord.h:28-30). -/
def ICord.empty (c : ICord) : Bool := c.len = 0

/-- `lengthMod` (ICord.h:206-208). -/
def ICord.lengthMod (c : ICord) : Nat := c.len &&& (c.csize - 1)

/-- `isFull` (ICord.h:201-203). -/
def ICord.isFull (c : ICord) : Bool := c.len ≠ 0 ∧ c.lengthMod = 0

/-- `next` (ICord.h:216-222): null at the tail, else the stored link; the outer `none` is undefined
behaviour. -/
def ICord.next (c : ICord) (h : CordHeap) (p : Option Nat) : Option (Option Nat) :=
  if p = c.tail then some none
  else match h.block p with
    | none => none
    | some b => match b.link c.csize with
      | none => none
      | some n => some (some n)

/-- `allocateBlock` (ICord.h:225-238). -/
def ICord.allocateBlock (c : ICord) : Option ICord :=
  if c.isFull then
    let blk := c.heap.length
    let heap := c.heap ++ [some (CordBlock.fresh c.csize)]
    let head := match c.head with | none => some blk | some a => some a
    match c.tail with
    | none => some { c with heap := heap, head := head, tail := some blk }
    | some t =>
      match c.heap.block (some t) with
      | none => none
      | some b => some { c with heap := heap.set t (some { b with next := some blk }), head := head,
                                tail := some blk }
  else none

/-- The loop of `clear` (ICord.h:37-45). -/
def ICord.clearLoop (c : ICord) : Nat → CordHeap → Option Nat → Option CordHeap
  | 0, _, _ => none
  | fuel + 1, h, p =>
    if p ≠ c.tail then
      match c.next h p with
      | none => none
      | some n => match h.free p with
        | none => none
        | some h' => ICord.clearLoop c fuel h' n
    else h.free p

/-- `clear` (ICord.h:32-52). -/
def ICord.clear (c : ICord) : Option ICord :=
  match c.next c.heap c.head with
  | none => none
  | some alloc =>
    let h := if alloc.isSome then ICord.clearLoop c (c.heap.length + 1) c.heap alloc else some c.heap
    match h with
    | none => none
    | some h => some { c with heap := h, len := 0, head := none, tail := none }

/-- The loop of `applyTo` (ICord.h:61-72). -/
def ICord.applyLoop {σ : Type} (c : ICord) (visitor : σ → Bytes → σ × Bool) :
    Nat → Option Nat → σ → Option (σ × Bool)
  | 0, _, _ => none
  | fuel + 1, p, s =>
    if p ≠ c.tail then
      match (c.heap.block p).bind (·.read c.csize) with
      | none => none
      | some bytes =>
        let r := visitor s bytes
        if !r.2 then some (r.1, false)
        else match c.next c.heap p with
          | none => none
          | some n => ICord.applyLoop c visitor fuel n r.1
    else match (c.heap.block c.tail).bind (·.read c.lengthMod) with
      | none => none
      | some bytes => some (visitor s bytes)

/-- `applyTo` (ICord.h:56-73). -/
def ICord.applyTo {σ : Type} (c : ICord) (visitor : σ → Bytes → σ × Bool) (s : σ) : Option (σ × Bool) :=
  if c.empty then some (s, true) else ICord.applyLoop c visitor (c.heap.length + 1) c.head s

/-- The loop of `appendTo` (ICord.h:76-93). -/
def ICord.appendToLoop (c : ICord) : Nat → Option Nat → Bytes → Option Bytes
  | 0, _, _ => none
  | fuel + 1, p, str =>
    if p ≠ c.tail then
      match (c.heap.block p).bind (·.read c.csize) with
      | none => none
      | some bytes => match c.next c.heap p with
        | none => none
        | some n => ICord.appendToLoop c fuel n (str ++ bytes)
    else match (c.heap.block c.tail).bind (·.read (if c.lengthMod = 0 then c.csize else c.lengthMod)) with
      | none => none
      | some bytes => some (str ++ bytes)

/-- `appendTo` (ICord.h:76-93). -/
def ICord.appendTo (c : ICord) (str : Bytes) : Option (Bytes × Nat) :=
  if c.empty then some (str, 0)
  else match ICord.appendToLoop c (c.heap.length + 1) c.head str with
    | none => none
    | some s => some (s, c.len)

/-- `str` (ICord.h:96-102). -/
def ICord.str (c : ICord) : Option Bytes := (c.appendTo []).map (·.1)

/-- The block allocation inside `write` (ICord.h:110-116). -/
def ICord.room (c : ICord) (len : Nat) : Option (ICord × Nat) :=
  if c.len ≠ 0 ∧ c.lengthMod = 0 then match c.allocateBlock with
    | none => none
    | some c' => some (c', min len c.csize)
  else some (c, min len (c.csize - c.lengthMod))

/-- `write` (ICord.h:104-124). -/
def ICord.write (c : ICord) (v : Bytes) : Option ICord :=
  if hv : v = [] then some c
  else match c.room v.length with
    | none => none
    | some (c', n) =>
      match c'.tail with
      | none => none
      | some t => match c'.heap.block (some t) with
        | none => none
        | some b => match b.put c.lengthMod (v.take n) with
          | none => none
          | some b' =>
            let c'' := { c' with heap := c'.heap.store t b', len := c'.len + n }
            if h : n < v.length then
              if hn : n = 0 then none else ICord.write c'' (v.drop n)
            else some c''
termination_by v.length
decreasing_by
  have : 0 < v.length := List.length_pos_iff.2 hv
  simp; omega

/-- The loop of `operator<<(const ICord&)` (ICord.h:183-195) for another object; `next` is this
object's, whose tail is not a block of `rhs`. -/
def ICord.appendCordLoop (rhs : ICord) : Nat → Option Nat → ICord → Option ICord
  | 0, _, _ => none
  | fuel + 1, p, c =>
    if p ≠ rhs.tail then
      match rhs.heap.block p with
      | none => none
      | some b => match b.read c.csize with
        | none => none
        | some bytes => match c.write bytes with
          | none => none
          | some c' => match b.link c.csize with
            | none => none
            | some n => ICord.appendCordLoop rhs fuel (some n) c'
    else if rhs.lengthMod = 0 then some c
    else match (rhs.heap.block rhs.tail).bind (·.read rhs.lengthMod) with
      | none => none
      | some bytes => c.write bytes

/-- `operator<<(const ICord&)` (ICord.h:183-195), `rhs` another object of the same type. -/
def ICord.appendCord (c rhs : ICord) : Option ICord :=
  ICord.appendCordLoop rhs (rhs.heap.length + 1) rhs.head c

end Nebula
