import Verif.Fs.ClusterId
import Verif.Fs.ClusterIdProps
import Verif.Exec
/-!
# The cluster id in heartbeats of a storage server (src/common/clients/meta/MetaClient.cpp:2467-2523)

The id is its 64 bits, 0 means unknown.  The heartbeats of a client follow one another: they are sent by `isMetadReady` and then by the background
thread, which wait for the answer.  The file is that of `Verif.Fs.ClusterId`.
-/
namespace Nebula
namespace Meta
open Fs

/-- `options_.clusterId_` and the file named by `FLAGS_cluster_id_path`. -/
structure HbState where
  mem : UInt64
  file : IdFile
deriving DecidableEq, Repr

/-- One heartbeat: whether the file can be opened and read, the id in the answer of the server (`none`: no answer), and the system calls. -/
structure HbInput where
  readable : Bool
  answer : Option UInt64
  sys : Sys

/-- MetaClient.cpp:2476-2480: the id that is sent. -/
def hbSent (st : HbState) (readable : Bool) : UInt64 :=
  if st.mem = 0 then (if readable then getClusterIdFromFile st.file else 0) else st.mem

/-- MetaClient.cpp:2467-2523 `heartbeat` of a storage server: the state after it, `none` for the memory if the process was ended (`LOG(FATAL)`). -/
def heartbeat (st : HbState) (i : HbInput) : Option UInt64 × IdFile :=
  let id := hbSent st i.readable
  match i.answer with
  | none => (some id, st.file)
  | some r =>
    if id = 0 then
      let p := persistInFile i.sys st.file r
      if p.ok then (some r, p.final) else (none, p.final)
    else (some id, st.file)

/-- What happens to a storage server. -/
inductive HbEvent where
  /-- a heartbeat that ends -/
  | beat (i : HbInput)
  /-- the process is started again -/
  | restart
  /-- the machine loses power; `kept` says whether the data of the file had reached the disk -/
  | power (kept : Bool)
  /-- process or machine end during a heartbeat, which leaves the file as `file` -/
  | crash (i : HbInput) (file : IdFile)

/-- The file after a loss of power. -/
def afterPower (kept : Bool) (f : IdFile) : IdFile := if kept then f else f.map fun b => List.replicate b.length 0

inductive HbStep : HbState → HbEvent → HbState → Prop
  | beat {st : HbState} {i m f} : heartbeat st i = (some m, f) → HbStep st (.beat i) ⟨m, f⟩
  | fatal {st : HbState} {i f} : heartbeat st i = (none, f) → HbStep st (.beat i) ⟨0, f⟩
  | restart {st : HbState} : HbStep st .restart ⟨0, st.file⟩
  | power {st : HbState} {kept} : HbStep st (.power kept) ⟨0, afterPower kept st.file⟩
  | crash {st : HbState} {i : HbInput} {r f} : i.answer = some r → hbSent st i.readable = 0 → AfterCrash (persistInFile i.sys st.file r).states f →
      HbStep st (.crash i f) ⟨0, f⟩

end Meta
end Nebula
