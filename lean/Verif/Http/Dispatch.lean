import Verif.Http.Model
/-!
# Model of `MetaClient::download` and `MetaClient::ingest` (src/common/clients/meta/MetaClient.cpp)

Both ask the web service of the meta leader through curl.  `leader` is the host of `leader_` at the moment of the call, `wsPort` the
flag `ws_meta_http_port`; `%d` of a 32-bit integer is `intDec`.  The log is not modelled, except that writing to it reads the result.
-/
namespace Nebula
namespace Http

/-- What the future is fulfilled with.  `undef`: `value()` of a `StatusOr` without value (StatusOr.h:252-255), which fails a
`DCHECK` in a debug build and reads an inactive member of a union otherwise. -/
inductive Dispatched where
  | done (ok : Bool)
  | undef
deriving DecidableEq, Repr

/-- MetaClient.cpp:3766-3769: the address of a download. -/
def downloadUrl (leader : Bytes) (wsPort : Int) (hdfsHost : Bytes) (hdfsPort : Int) (hdfsPath : Bytes) (space : Int) : Bytes :=
  ascii "http://" ++ cstr leader ++ ascii ":" ++ intDec wsPort ++ ascii "/download-dispatch?host=" ++ cstr hdfsHost ++
    ascii "&port=" ++ intDec hdfsPort ++ ascii "&path=" ++ cstr hdfsPath ++ ascii "&space=" ++ intDec space

/-- MetaClient.cpp:3762-3781 `download`; `run` is `popen`. -/
def download (run : Bytes → Option Process.Pipe) (leader : Bytes) (wsPort : Int) (hdfsHost : Bytes) (hdfsPort : Int) (hdfsPath : Bytes)
    (space : Int) : Dispatched :=
  match request run (getCommand (downloadUrl leader wsPort hdfsHost hdfsPort hdfsPath space) (ascii "-G")) with
  | some text => .done (decide (text = ascii "SSTFile dispatch successfully"))
  | none => .undef

/-- MetaClient.cpp:3784-3785: the address of an ingest. -/
def ingestUrl (leader : Bytes) (wsPort space : Int) : Bytes :=
  ascii "http://" ++ cstr leader ++ ascii ":" ++ intDec wsPort ++ ascii "/ingest-dispatch?space=" ++ intDec space

/-- MetaClient.cpp:3783-3797 `ingest`. -/
def ingest (run : Bytes → Option Process.Pipe) (leader : Bytes) (wsPort space : Int) : Dispatched :=
  match request run (getCommand (ingestUrl leader wsPort space) (ascii "-G")) with
  | some text => .done (decide (text = ascii "SSTFile ingest successfully"))
  | none => .done false

end Http
end Nebula
