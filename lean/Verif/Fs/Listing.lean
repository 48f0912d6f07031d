import Verif.Fs.Path
import Verif.Fs.Lines
/-!
# Listing directories and opening iterators: src/common/fs/FileUtils.{h,cpp}

The file system does not change during a call.  `lstat` gives the kind of the file at a path, `opendir` and `readdir`
the entries of a directory, `realpath` the place a link leads to; `fnm` stands for `fnmatch` with `FNM_FILE_NAME | FNM_PERIOD`.
-/
namespace Nebula
namespace Fs
namespace Listing

/-- FileUtils.h:17-27 `FileType`. -/
inductive FType where
  | unknown | notExist | regular | directory | symLink | charDev | blockDev | fifo | socket
deriving DecidableEq, Repr

/-- FileUtils.cpp:139-153 `getFileTypeName`. -/
def typeName : FType → String
  | .unknown => "Unknown" | .notExist => "NotExist" | .regular => "Regular" | .directory => "Directory"
  | .symLink => "SoftLink" | .charDev => "CharDevice" | .blockDev => "BlockDevice" | .fifo => "FIFO" | .socket => "Socket"

/-- `d_type` of a `struct dirent`. -/
inductive DType where
  | unknown | reg | dir | lnk | chr | blk | fifo | sock | wht
deriving DecidableEq, Repr

/-- `struct dirent`. -/
structure Dirent where
  name : Bytes
  dtype : DType
deriving DecidableEq, Repr

/-- FileUtils.h:257-265 `CHECK_TYPE`: an entry whose type is not known is looked up. -/
def checkType (lstat : Bytes → FType) (ftype : FType) (dtype : DType) (e : Dirent) (path : Bytes) : Bool :=
  if e.dtype = .unknown then lstat (joinPath path e.name) = ftype else e.dtype = dtype

/-- FileUtils.cpp:561. -/
def isReg (lstat : Bytes → FType) := checkType lstat .regular .reg
/-- FileUtils.cpp:562. -/
def isDir (lstat : Bytes → FType) := checkType lstat .directory .dir
/-- FileUtils.cpp:563. -/
def isLink (lstat : Bytes → FType) := checkType lstat .symLink .lnk
/-- FileUtils.cpp:564. -/
def isChr (lstat : Bytes → FType) := checkType lstat .charDev .chr
/-- FileUtils.cpp:565. -/
def isBlk (lstat : Bytes → FType) := checkType lstat .blockDev .blk
/-- FileUtils.cpp:566. -/
def isFifo (lstat : Bytes → FType) := checkType lstat .fifo .fifo
/-- FileUtils.cpp:567. -/
def isSock (lstat : Bytes → FType) := checkType lstat .socket .sock

/-- FileUtils.cpp:409-415: is the entry of the type asked for? -/
def wanted (lstat : Bytes → FType) (type : FType) (dirpath : Bytes) (e : Dirent) : Bool :=
  (type == .regular && isReg lstat e dirpath) || (type == .directory && isDir lstat e dirpath) ||
  (type == .symLink && isLink lstat e dirpath) || (type == .charDev && isChr lstat e dirpath) ||
  (type == .blockDev && isBlk lstat e dirpath) || (type == .fifo && isFifo lstat e dirpath) ||
  (type == .socket && isSock lstat e dirpath)

/-- FileUtils.cpp:421-422: there is a pattern, and the name does not match it. -/
def mismatched (fnm : Bytes → Bytes → Bool) (pattern : Option Bytes) (name : Bytes) : Bool :=
  match pattern with
  | some p => !fnm p name
  | none => false

/-- FileUtils.cpp:408-431: the loop over the entries. -/
def collect (lstat : Bytes → FType) (fnm : Bytes → Bytes → Bool) (dirpath : Bytes) (type : FType) (full : Bool) (pattern : Option Bytes) :
    List Dirent → List Bytes → List Bytes
  | [], acc => acc
  | e :: es, acc =>
    if wanted lstat type dirpath e then
      if e.name = ascii "." ∨ e.name = ascii ".." then collect lstat fnm dirpath type full pattern es acc
      else if mismatched fnm pattern e.name then
        collect lstat fnm dirpath type full pattern es acc
      else collect lstat fnm dirpath type full pattern es (acc ++ [if full then joinPath dirpath e.name else e.name])
    else collect lstat fnm dirpath type full pattern es acc

/-- FileUtils.cpp:394-435 `listAllTypedEntitiesInDir`; `opendir` gives no entries if it fails. -/
def listAllTyped (opendir : Bytes → Option (List Dirent)) (lstat : Bytes → FType) (fnm : Bytes → Bytes → Bool)
    (dirpath : Bytes) (type : FType) (full : Bool) (pattern : Option Bytes) : List Bytes :=
  match opendir dirpath with
  | none => []
  | some es => collect lstat fnm dirpath type full pattern es []

/-- FileUtils.cpp:438-446 `listAllFilesInDir`. -/
def listAllFiles (opendir : Bytes → Option (List Dirent)) (lstat : Bytes → FType) (fnm : Bytes → Bytes → Bool)
    (dirpath : Bytes) (full : Bool) (pattern : Option Bytes) : List Bytes :=
  listAllTyped opendir lstat fnm dirpath .regular full pattern

/-- FileUtils.cpp:449-457 `listAllDirsInDir`. -/
def listAllDirs (opendir : Bytes → Option (List Dirent)) (lstat : Bytes → FType) (fnm : Bytes → Bytes → Bool)
    (dirpath : Bytes) (full : Bool) (pattern : Option Bytes) : List Bytes :=
  listAllTyped opendir lstat fnm dirpath .directory full pattern

/-! ## Opening an iterator -/

/-- What is at a path: a file or directory with what it holds (`none` if it may not be read), a link with the place it leads to
(`none` if `realpath` fails), or something else. -/
inductive Node where
  | reg (text : Option Bytes)
  | dir (names : Option (List Bytes))
  | link (target : Option Bytes)
  | other (type : FType)
deriving DecidableEq, Repr

/-- FileUtils.cpp:169-200 `fileType`. -/
def Node.type : Node → FType
  | .reg _ => .regular
  | .dir _ => .directory
  | .link _ => .symLink
  | .other t => t

/-- The members of an `Iterator` after opening: `type_`, what was opened, `status_.ok()`. -/
structure Opened where
  type : FType
  src : Option Source
  ok : Bool
deriving DecidableEq, Repr

/-- FileUtils.cpp:530-558 `openFileOrDirectory`.  Line 557 sets the status after the recursive call as well. -/
def openF (w : Bytes → Node) (path : Bytes) : Option Opened :=
  match w path with
  | .dir none => some ⟨.directory, none, false⟩
  | .dir (some ns) => some ⟨.directory, some (.dir ns), true⟩
  | .reg none => some ⟨.regular, none, false⟩
  | .reg (some s) => some ⟨.regular, some (.file s), true⟩
  | .link none => some ⟨.symLink, none, false⟩
  | .link (some t) => do
    let r ← openF w t
    some ⟨r.type, r.src, true⟩
  | .other t => some ⟨t, none, false⟩
partial_fixpoint

/-- The outcome of making an iterator. -/
inductive Made where
  | iter (it : Iter)
  | invalid
  | abort
deriving DecidableEq, Repr

/-- FileUtils.cpp:460-467 the constructor, with the checks of `next`, `dirNext` and `fileNext` (481-523).  A file that could not be
opened gives no line.  `none`: a recursion without end. -/
def make (w : Bytes → Node) (matches_ : Bytes → Bool) (path : Bytes) : Option Made := do
  let o ← openF w path
  if !o.ok then some .invalid
  else if o.type = .unknown then some .abort
  else match o.type, o.src with
    | .directory, some s => some (.iter (open_ matches_ s))
    | .directory, none => some .abort
    | .regular, some s => some (.iter (open_ matches_ s))
    | .regular, none => some .invalid
    | _, _ => some .abort

end Listing
end Fs
end Nebula
