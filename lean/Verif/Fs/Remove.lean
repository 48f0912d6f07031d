import Verif.Text
/-!
# Removing files: src/common/fs/FileUtils.cpp `remove`, `removeDir`

A file with everything below it.  `free` says whether `unlink` or `rmdir` of this file succeeds (permissions), `open` whether the directory
can be opened.  The entries of a directory are in the order in which `readdir` gives them, without `.` and `..`, which the
code skips.  No other process changes the tree.
-/
namespace Nebula
namespace Fs

mutual
inductive Tree where
  | reg (free : Bool)
  | link (free : Bool)
  | special
  | dir (opens free : Bool) (es : Entries)
inductive Entries where
  | nil
  | cons (name : Bytes) (t : Tree) (es : Entries)
end

/-- FileUtils.h:258-265 `isDir`, both branches. -/
def Tree.isDir : Tree → Bool
  | .dir .. => true
  | _ => false

mutual
/-- FileUtils.cpp:295-326 `remove` on an existing file: what it returns and what is left of the file. -/
def remove (recursively : Bool) : Tree → Bool × Option Tree
  | .reg free => if free then (true, none) else (false, some (.reg free))
  | .link free => if free then (true, none) else (false, some (.link free))
  | .special => (false, some .special)
  /- FileUtils.cpp:22-86 `removeDir` -/
  | .dir opens free es =>
    if !opens then (false, some (.dir opens free es))
    else match removeAll recursively es with
      | (true, .nil) => if free then (true, none) else (false, some (.dir opens free .nil))
      | (_, es') => (false, some (.dir opens free es'))
/-- FileUtils.cpp:33-56: the entries, until one of them cannot be removed. -/
def removeAll (recursively : Bool) : Entries → Bool × Entries
  | .nil => (true, .nil)
  | .cons n t es =>
    if t.isDir && !recursively then (false, .cons n t es)
    else match remove recursively t with
      | (true, none) => removeAll recursively es
      | (true, some t') => ((removeAll recursively es).1, .cons n t' (removeAll recursively es).2)
      | (false, none) => (false, es)
      | (false, some t') => (false, .cons n t' es)
end

/-- FileUtils.cpp:295-326 `remove` on a path that may not exist. -/
def removePath (recursively : Bool) : Option Tree → Bool × Option Tree
  | none => (true, none)
  | some t => remove recursively t

end Fs
end Nebula
