import Verif.Json.Model
import Verif.Process.Model
/-!
# Requests through curl and hdfs (src/common/http/HttpClient.cpp, src/common/hdfs/HdfsCommandHelper.cpp)

The texts given to the shell by way of `runCommand` (C108).  `folly::stringPrintf` with `%s` takes an argument up to its first NUL (`cstr`).  The texts of errors are not modelled.
-/
namespace Nebula
namespace Http
open Json

/-- HttpClient.cpp:13-15: the command of `get`. -/
def getCommand (path options : Bytes) : Bytes := ascii "/usr/bin/curl " ++ cstr options ++ ascii " \"" ++ cstr path ++ ascii "\""

/-- HttpClient.cpp:24-27: the command of `post` with a text of options. -/
def postCommand (path header : Bytes) : Bytes := ascii "/usr/bin/curl -X POST " ++ cstr header ++ ascii " \"" ++ cstr path ++ ascii "\""

/-- HttpClient.cpp:61-64: the command of `put` with a text of options. -/
def putCommand (path header : Bytes) : Bytes := ascii "/usr/bin/curl -X PUT " ++ cstr header ++ ascii " \"" ++ cstr path ++ ascii "\""

/-- `dynamic::empty`: only objects, arrays and strings have a size, others throw (`none`). -/
def dynEmpty {F : Type} : Dyn F → Option Bool
  | .str s => some s.isEmpty
  | .arr l => some l.isEmpty
  | .obj l => some l.isEmpty
  | _ => none

/-- HttpClient.cpp:76-97 `sendRequest`: the command; `none` if there is an exception. -/
def sendCommand {F : Type} (D : Doubles F) (ord : List Bytes → List Bytes) (path : Bytes) (data : Dyn F) (reqType : Bytes) : Option Bytes :=
  (dynEmpty data).bind fun e =>
    if e then some (ascii "curl -X " ++ cstr reqType ++ ascii " -s \"" ++ cstr path ++ ascii "\"")
    else (dump D ord none data).map fun json =>
      ascii "curl -X " ++ cstr reqType ++ ascii " -H \"Content-Type: application/json\" -d'" ++ cstr json ++ ascii "' -s \"" ++ cstr path ++ ascii "\""

/-- HttpClient.cpp:46-48 `post` with JSON. -/
def postData {F : Type} (D : Doubles F) (ord : List Bytes → List Bytes) (path : Bytes) (data : Dyn F) : Option Bytes := sendCommand D ord path data (ascii "POST")

/-- HttpClient.cpp:72-74 `put` with JSON. -/
def putData {F : Type} (D : Doubles F) (ord : List Bytes → List Bytes) (path : Bytes) (data : Dyn F) : Option Bytes := sendCommand D ord path data (ascii "PUT")

/-- HttpClient.cpp:36-44 and :50-58: a map of strings as an object. -/
def mapData {F : Type} (header : List (Bytes × Bytes)) : Dyn F := .obj (header.map fun p => (p.1, .str p.2))

/-- HdfsCommandHelper.cpp:13-17: the command of `ls`. -/
def lsCommand (host : Bytes) (port : Int) (path : Bytes) : Bytes := ascii "hdfs dfs -ls hdfs://" ++ cstr host ++ ascii ":" ++ intDec port ++ cstr path

/-- HdfsCommandHelper.cpp:27-33: the command of `copyToLocal`. -/
def copyCommand (host : Bytes) (port : Int) (path localPath : Bytes) : Bytes :=
  ascii "hdfs dfs -copyToLocal hdfs://" ++ cstr host ++ ascii ":" ++ intDec port ++ cstr path ++ ascii " " ++ cstr localPath

/-- HttpClient.cpp:16-21 (and the other requests, and hdfs): the output of the command, an error if it could not be run or read. -/
def request (run : Bytes → Option Process.Pipe) (command : Bytes) : Option Bytes := Process.runCommand (run command)

end Http
end Nebula
