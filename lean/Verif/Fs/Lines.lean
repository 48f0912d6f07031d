import Verif.Text
/-!
# Iterating over the lines of a file or the entries of a directory: src/common/fs/FileUtils.cpp `Iterator`

`matches` stands for `std::regex_search` with the pattern (always true without a pattern).
-/
namespace Nebula
namespace Fs

/-- What is left to read: the rest of a file, or the names `readdir` will still give. -/
inductive Source where
  | file (rest : Bytes)
  | dir (rest : List Bytes)
deriving DecidableEq, Repr

structure Iter where
  src : Source
  entry : Bytes
  /-- `status_.ok()` -/
  valid : Bool
deriving DecidableEq, Repr

/-- `std::getline` on the text `s`: the line and the rest; `none` if there is nothing left. -/
def getline : Bytes → Option (Bytes × Bytes)
  | [] => none
  | 10 :: s => some ([], s)
  | c :: s => match getline s with
    | none => some ([c], [])
    | some (l, r) => some (c :: l, r)

/-- FileUtils.cpp:503-518 `dirNext`: names that start with a dot are skipped. -/
def dirNext : List Bytes → Option (Bytes × List Bytes)
  | [] => none
  | n :: ns => if n.head? = some 46 then dirNext ns else some (n, ns)

/-- FileUtils.cpp:498-523: one entry of either kind. -/
def advance : Source → Option (Bytes × Source)
  | .file s => (getline s).map fun x => (x.1, .file x.2)
  | .dir ns => (dirNext ns).map fun x => (x.1, .dir x.2)

/-- FileUtils.cpp:476-495: the loop of `next`.  Every turn takes something from the source, whose size bounds the turns. -/
def nextF (matches_ : Bytes → Bool) : Nat → Source → Bytes → Iter
  | 0, s, e => ⟨s, e, false⟩
  | f + 1, s, e => match advance s with
    | none => ⟨s, e, false⟩
    | some (e', s') => if matches_ e' then ⟨s', e', true⟩ else nextF matches_ f s' e'

def Source.size : Source → Nat
  | .file s => s.length
  | .dir ns => ns.length

/-- FileUtils.cpp:481-500 `next`; `none`: the check that the iterator is valid fails and the process aborts. -/
def next (matches_ : Bytes → Bool) (it : Iter) : Option Iter :=
  if it.valid then some (nextF matches_ (it.src.size + 1) it.src it.entry) else none

/-- FileUtils.cpp:452-460: the constructor, for a file or directory that could be opened. -/
def open_ (matches_ : Bytes → Bool) (s : Source) : Iter := nextF matches_ (s.size + 1) s []

/-- The loop a user writes: `for (; it.valid(); ++it) use(it.entry())`, at most `n` times. -/
def walkIter (matches_ : Bytes → Bool) : Nat → Iter → List Bytes
  | 0, _ => []
  | n + 1, it => if it.valid then it.entry :: (match next matches_ it with
      | none => []
      | some it' => walkIter matches_ n it') else []

end Fs
end Nebula
