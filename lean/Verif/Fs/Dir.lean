import Verif.Fs.PathSpec
/-!
# Making directories: src/common/fs/FileUtils.cpp `makeDir`

The file system is a function from the names on the way from the root to the kind of file there.  Simplifications: links are not followed
on the way, `..` is not a special name, and permissions and limits are not modelled.  Between any two system
calls other processes may change the file system: `env k` is what they do before the `k`-th system call.
-/
namespace Nebula
namespace Fs

inductive Kind where | dir | reg | link | other
deriving DecidableEq, Repr

abbrev FS := List Bytes → Option Kind

/-- FileUtils.h:17-27 `FileType`; `special` stands for the four kinds of devices, pipes and sockets. -/
inductive FileType where | unknown | notExist | directory | regular | symLink | special
deriving DecidableEq, Repr

/-- The names on the way from the root to the file a path denotes, in the working directory `cwd`. -/
def resolve (cwd : List Bytes) (p : Bytes) : List Bytes := if absolute p then comps p else cwd ++ comps p

/-- `lstat`, walking from `pre` along the names: a missing name is `ENOENT`, a file that is no directory on the way is
`ENOTDIR`. -/
def walk (fs : FS) (pre : List Bytes) : List Bytes → FileType
  | [] => match fs pre with
    | none => .notExist
    | some .dir => .directory
    | some .reg => .regular
    | some .link => .symLink
    | some .other => .special
  | c :: cs => match fs pre with
    | none => .notExist
    | some .dir => walk fs (pre ++ [c]) cs
    | some _ => .unknown

/-- FileUtils.cpp:169-200 `fileType`. -/
def fileType (fs : FS) (l : List Bytes) : FileType := walk fs [] l

/-- `mkdir`: fails if the file exists or its directory does not. -/
def mkdir (fs : FS) (l : List Bytes) : Option FS :=
  if fileType fs l = .notExist ∧ fileType fs l.dropLast = .directory then some fun m => if m = l then some .dir else fs m
  else none

/-- The result of a call: what is returned, the file system, the number of system calls so far. -/
structure Made where
  ok : Bool
  fs : FS
  calls : Nat

/-- FileUtils.cpp:349-358: the directory itself, when its parent has been made. -/
def makeLast (env : Nat → FS → FS) (l : List Bytes) (r : Made) : Made :=
  let fs := env r.calls r.fs
  match mkdir fs l with
  | some fs' => ⟨true, fs', r.calls + 1⟩
  | none =>
    let fs2 := env (r.calls + 1) fs
    ⟨decide (fileType fs2 l = .directory), fs2, r.calls + 2⟩

/-- FileUtils.cpp:329-359 `makeDir`.  The first argument bounds the depth of the recursion; the length of the path suffices. -/
def makeDirF (env : Nat → FS → FS) (cwd : List Bytes) : Nat → FS → Nat → Bytes → Made
  | 0, fs, k, _ => ⟨false, fs, k⟩
  | f + 1, fs, k, p =>
    if p = [] then ⟨false, fs, k⟩
    else
      let fs := env k fs
      match fileType fs (resolve cwd p) with
      | .directory | .symLink => ⟨true, fs, k + 1⟩
      | .notExist =>
        let r := if (dividePath p).1 = [] then ⟨true, fs, k + 1⟩ else makeDirF env cwd f fs (k + 1) (dividePath p).1
        if r.ok then makeLast env (resolve cwd p) r else r
      | _ => ⟨false, fs, k + 1⟩

/-- FileUtils.cpp:329-359 `makeDir`. -/
def makeDir (env : Nat → FS → FS) (cwd : List Bytes) (fs : FS) (p : Bytes) : Made :=
  makeDirF env cwd (p.length + 1) fs 0 p

end Fs
end Nebula
