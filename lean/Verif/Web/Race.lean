import Verif.Web.Life
/-!
# Model of requests for flags that are served at the same time (src/common/webservice/{Get,Set}FlagsHandler.cpp)

The service has several threads (WebService.cpp:24, 102), so that requests that set and read flags run at the same time.  gflags takes a lock in each call
(`SetCommandLineOption`, `GetCommandLineFlagInfo`, `GetAllFlags`), and nothing else is shared: one step is one such call with what the handler does next.  Between the calls of one request
those of others may come in any order.  The end of the process by an exception is `none`.
-/
namespace Nebula
namespace Web.Race
open Json Conf Net Life

/-- What a handler has still to do, and what it has so far: `setting` is the loop of SetFlagsHandler.cpp:64-72, `reading` and `readingAll` are the two branches of `getFlags`
(GetFlagsHandler.cpp:157-180). -/
inductive Job (F : Type) where
  | setting (todo : List (Bytes × Dyn F)) (failed : List Bytes)
  | reading (verbose : Bool) (todo : List Bytes) (out : List (Dyn F))
  | readingAll (verbose : Bool)

/-- The next call of a handler and what it does with the result; nothing if it has finished. -/
def Job.step {F : Type} (S : Site F) (fs : List FlagInfo) : Job F → Option (Job F × List FlagInfo)
  | .setting [] failed => some (.setting [] failed, fs)
  | .setting ((k, v) :: l) failed =>
    match asString S.C v with
    | none => none
    | some t =>
      match setOption S.accept (cstr k) (cstr t) fs with
      | some fs' => some (.setting l failed, fs')
      | none => some (.setting l (failed ++ [k]), fs)
  | .reading verbose [] out => some (.reading verbose [] out, fs)
  | .reading verbose (n :: ns) out => (oneFlag S.T S.bigInt verbose n (flagInfo fs (cstr n))).map fun d => (.reading verbose ns (out ++ [d]), fs)
  | .readingAll verbose => (collect (fs.map fun f => oneFlag S.T S.bigInt verbose f.name (some f))).map fun out => (.reading verbose [] out, fs)

/-- The handlers, by the number of the request. -/
abbrev Jobs (F : Type) := Nat → Job F

def Jobs.put {F : Type} (js : Jobs F) (id : Nat) (j : Job F) : Jobs F := fun i => if i = id then j else js i

/-- A schedule: whose turn it is. -/
def run {F : Type} (S : Site F) : Jobs F → List FlagInfo → List Nat → Option (Jobs F × List FlagInfo)
  | js, fs, [] => some (js, fs)
  | js, fs, id :: sched => ((js id).step S fs).bind fun (j, fs') => run S (js.put id j) fs' sched

end Web.Race
end Nebula
