# Design of the formal model of vesoft-inc/nebula-common

## Layout

`lean/Verif/<Area>/Model.lean`  definitions that transcribe the C++ (each cites file:lines)
`lean/Verif/<Area>/Spec.lean`   small specification written without looking at the model's helpers
`lean/Verif/<Area>/Lemmas.lean` helper lemmas (not part of the claims)
`lean/Verif/<Area>/Props.lean`  the property theorems `C##_...` with `example` witnesses beside each

Names of property theorems start with the property id.  A theorem whose name ends in
`_partial` proves part of a property; a theorem whose name contains `violated` proves, with a
concrete witness, that the *code* does not have the property (the negation).

## Trusted base

* Lean 4.33.0 kernel; axioms at most `propext`, `Classical.choice`, `Quot.sound`.
* The reading of the C++ source: every definition carries the lines it transcribes.
* No axioms of our own, no `sorry`, no `native_decide`, no `bv_decide`.

## General modelling decisions

* 64-bit integers are `Int` together with an explicit range predicate; builtin overflow checks
  are range tests; wrap-around, where it happens, is an explicit `bmod`/`emod`.
* Undefined behaviour and `LOG(FATAL)`/`CHECK` aborts are explicit outcomes of the model.
* `double` is modelled by `nan | ±inf | fin q` with `q` a rational, and IEEE round to nearest
  even to 53 bits after the exact operation; negative zero is identified with zero.
* `std::string` is a list of bytes; `std::unordered_map`/`set` are association lists with the
  "first insertion wins / overwrite" behaviour of the call used, iteration order left
  arbitrary (theorems quantify over it) wherever the code iterates.
* Threads: one step per critical section (mutex held) or per atomic operation; theorems
  quantify over every list of steps (schedule).
* Futures/promises: `setValue` on an already fulfilled promise is an explicit error outcome.

## Plan per property

| id | modelled | proof |
|----|----------|-------|
| C01, C02 | `Date::toInt`, `fromInt`, `+`, `-` over Int, month tables as lists | closed form of the year loop, case split on the 12 months, `omega` |
| C03 | the comparison operators field by field | case analysis |
| C04, C05 | `dateTimeDiffSeconds`, `unixSecondsToDateTime` with the while loop as recursion | Gregorian day-count spec defined independently (recursive count of days), loop invariant, `omega` |
| C06 | `dateFromMap` etc. as folds over key/value lists | induction over the entries |
| C07 | combination of both | witness 2100-02-28 + 1; partial theorem on years 1901..2099 |
| C08-C16 | type `Value` with all constructors, each operator as a total function | case analysis on constructors, induction for nested lists |
| C17-C21 | Edge, Step, Path, DataSet structures | algebra, induction over steps/rows |
| C22, C23 | list + map representation of `LRU`, shards as a function of the hash | refinement to an abstract recency list, induction over operations |
| C24, C25 | blocks as lists with explicit positions | representation invariant, induction over writes |
| C26, C27 | byte layout of the status buffer with the 16-bit length; tagged union | case analysis, induction over histories |
| C28 | the sample loop with the random draws as an input list | induction; counting argument for the bias |
| C29-C33 | labelled transition systems, one step per atomic section | invariants by induction over schedules |
| C34 | state (start, accumulated, paused flag) | induction over events |
| C35 | MurmurHash2 on 64-bit words, `partId` | bounds and dependence |
| C36, C37 | expression tree type, byte encoder, decoder with explicit out-of-bounds outcome; constants in the thrift encoding of C67 | induction on the tree; relational stability of the decoder under a change of what follows |
| C38-C46 | evaluation of expressions as functions of operand values | induction over operand lists |
| C71 | the evaluator of C38-C46 | a relational interpretation (`Par`): any relation between states kept by the primitive accesses is kept by evaluation; mutual induction over expressions |
| C47 | state machine of `AggData` per function | induction over inputs; error bounds for SUM and AVG from the half-unit bound of rounding; STD as a recurrence over any rounding, exact recurrence = population variance; the rounded recurrence is followed beside the exact one and the distance between them is bounded step by step |
| C48-C57 | association-list caches, event lists | induction; refinement to set/multiset statements |
| C58-C65 | strings as character/byte lists, POSIX shell single-quote reader as spec, file system as crash-prone store | induction |
| C70 | the readers of C67 | stability of every reader, induction over the nesting |
| C67-C69 | the Thrift compact protocol (external, transcribed), the `goto` readers of *Ops.inl as a small machine over field tables, writers | round trip by induction over the nesting of values; skipping by induction over protocol data |

| C66 | `Path::append` | case analysis, induction over steps |
| C72-C74 | the per-host answer handler of `StorageClientBase::collectResponse` with leader cache updates; request building of the graph and internal clients | invariants over all interleavings of answers; induction over rows |
| C75, C76 | document ids (base64, digest as a parameter), answers as JSON values | injectivity by induction on byte triples; exact characterisation of the readers |
| C77-C79 | a file tree with other processes' steps interleaved; `remove`, iterators over lines and directory entries | induction over path components, schedules and lines |
| C80, C81 | `loadData`, `loadSchemas`, heartbeat as one step per RPC or lock | case analysis on which RPC fails; invariant over schedules |
| C82-C88 | the function table of `FunctionManager` and the body of every function | case analysis over the table, induction over texts and lists |
| C89-C91 | attributes, path building, containers, increments, tests | induction over items |
| C92, C93 | the readers/writers of common/graph over the framework of C67 | round trip and truncation by induction over field tables |
| C94, C95 | `operator==` and `clone` of every expression class; null dereference is an outcome | mutual induction over trees |
| C96-C98 | `Configuration` over a model of `folly::dynamic`, `toJson`, `parseJson` | round trip of JSON by induction on nesting; the comment rule by induction over the text |
| C99 | `GflagsManager` | induction over the list of flags |
| C100-C102 | the handlers of the web service | induction over items; read-back through the JSON round trip |
| C103 | users and roles within the histories of the client of C80, every state other threads may see | invariant over histories |
| C104 | the waiting loop with attempts as input; `stop` and the waiter as two threads | induction over attempts; invariant over interleavings |
| C105 | the cluster id in memory and file over heartbeats, restarts and crash points | invariant over histories |
| C106 | the full-text tables of the client over refreshes and lookups, any order of the table | induction over the table and over histories |
| C107 | the managers over the client of C80 that holds the answers of a complete refresh | from the theorems of C80; induction over versions |
| C108 | pid files as texts with the line iterator of C79; two starting processes as a transition system; `fread` over any pieces | induction over lines and pieces |
| C109 | the command texts and the shell of C60, data through the JSON round trip | induction over bytes and JSON values |
| C110 | the table of connections of a thread, usability as input of every call | invariant over histories of calls |
| C111 | the signal table, the steps of `install`, signals delivered between any two steps | invariant over histories |
| C112 | the pool and its lock, any number of threads | invariant over interleavings |
| C113-C114 | interfaces, resolver answers, kernel tables and random draws as inputs; the regular expressions written out, and shown to be what the patterns mean (C149) | induction over lists and lines |
| C115 | `toHexStr` byte by byte | induction over bytes |
| C116 | the double arithmetic of `TscHelper` over exact rationals with rounding | error bounds of the rounding, monotonicity |
| C117 | the float operators of `Value` over exact rationals with rounding to 53 bits | rounding is nearest, ties to even, and monotone; doubles characterised independently as m * 2^e |
| C118 | `parseDate`, `parseTime`, `parseDateTime` over `std::get_time` with a `tm` whose members may be unset; the reading of numbers as a contract | the text is followed field by field; inversion of the reader for the exact set of texts |
| C119 | `toString` of every value, including vertices, edges, paths, maps, sets and data sets | two texts followed by the end of an element are cut at the same place, by induction on the value |
| C120 | `toString` of every expression class | a reader with fuel (part of the proof, not of the model) reads every plain text back, by induction on the expression |
| C121 | the bodies of all functions (C82) | case distinction over function, number and position of the NULL; induction for cos_similarity |
| C122 | evaluation (C45, C71) with the built-in functions (C82) | relational induction over the expression: states that agree on the bound variables; a quiet constant is `pure` of its value, folding is then rewriting |
| C123 | the six key-value calls over `getResponse` (C54); any server that applies a request as a whole, with fates of attempts and other clients as parameters | induction over the attempts with the invariant that the state is the first one or one application away |
| C124 | `loadListeners`, the four listener lookups, `loadRemoteListeners` with another cache at every lookup, `checkTagIndexed`, `checkEdgeIndexed` | counting: every triple of host, part and type occurs in the answer as often as in the listing; induction over the maps |
| C125 | `download`, `ingest` over `HttpClient::get` (C109) and `runCommand` (C108); a small specification of how addresses are read | the address is read back; the shell gives curl exactly that address |
| C126 | `get`, `put`, `remove` of the key-value client over `clusterIdsToHosts` (C48); `updateVertex`, `updateEdge`, `getUUID`, scans and lookups; parts as maps | every part is asked in one entry for exactly its items, so the effect of all entries in any order is that of the whole list |
| C127 | a memory of `Value` objects and payloads; all constructors, `operator=`, `clear`, setters, `swap`, `moveX`, destructor with their arms per type | an ownership relation (each live address belongs to exactly one variable) is kept by every call, by framing: a call changes only the addresses of the values it is given |
| C128 | `listAllTypedEntitiesInDir` over what `readdir` gives, `CHECK_TYPE` with and without types, `openFileOrDirectory` and the checks of `next` | induction over the entries; cases of what is at the path |
| C129 | the request of each of 80 calls as method and numbered fields, what is made of the answer; a reader of requests written from meta.thrift | the reader inverts the requests; with C123 for lost and repeated requests |
| C130 | the owner and the listener of a web service as two interleaved threads, with the mutex, flag and condition variable of `start()` | a control invariant and a history invariant by induction on executions; routes with the model of C61 |
| C131 | the structures of common.thrift and graph.thrift as data of the protocol; `serializedSize`/`serializedSizeZC` of every type | writers and sizes related to the declared datum by structural induction; one bound for all well-formed data |
| C132 | the request of every storage call by method and field numbers; a reader written from storage.thrift | the reader inverts the writer by cases; with the distribution of C48/C73 the requests of all hosts together are the call |
| C133 | every function of the meta client as accesses to members inside holds of locks, with branches and loops; any number of threads over reader-writer locks (`Verif/Locks`) | lockset and lock order checked by a function on the code, proved sound for all interleavings by invariants; races exhibited by executions |
| C134 | the same for statistics, LRU cache, object pool, latch, barrier, worker and storage answers, for any number of counters and buckets | as C133 |
| C135 | the life of a worker over any number of starts, with event bases, descriptors, notifiers and armed timers as resources; the owner's calls, other threads' calls and turns of the loop as events; the pool as a counter of workers | invariants over histories; exact characterisations of termination, leaks and use after free |
| C136 | how a task settles its promise, on top of C135 | case analysis, C135 |
| C137 | the global zone as a pointer, its initialisation, and the conversions of TimeUtils.h over an abstract zone database | histories of initialisations; arithmetic of C05 |
| C138 | the tables of Charset.h as maps and the four checks | case analysis over the tables, for all byte strings |
| C139 | a disk as a map of paths to trees (C78), objects made, filled and destroyed as events, with any name `mkdtemp`/`mkstemp` may choose | invariants over histories |
| C140 | Memory.h over what `sysinfo` tells, with the rounding of `float` | rational arithmetic and the rounding lemmas of C110 |
| C141 | processes with descriptors, session and buffers; `fork`, `setsid`, `open`, `dup2`, `close` as the system defines them | case analysis over the outcomes |
| C142 | threads with a cached id and a name; programs of nested scopes | induction over lives of threads |
| C143 | a world of names and links, `lstat`, `access`, `readlink`, `statfs`, /proc | induction over chains of links; the lines of C79 |
| C144 | evaluation with references (Expr/Refs): a reference to a variable or a part of its value is read when the code reads it; assignments are counted | simulation by the copying evaluation of Expr/Eval, by induction over expressions |
| C145 | expressions as objects in pools that point to each other (Expr/Objects): setters overwrite pointers, clone() makes new objects | the copy of the objects is the copy of the tree (Expr/Compare), by induction over the run of the copy and over the tree; frame lemmas |
| C146 | iterators over schemas, names of fields, life time of records (Meta/SchemaIter) | induction over the moves against the place they lead to; case analysis |
| C147 | logging macros: levels, conditions, sampling (Logging/Model) | case analysis; induction over histories of executions against the divisibility of their number |
| C148 | values, structures and answers over protocols that identify fields by name (Wire/Named) | induction over the value against `textImage`; commutation of the readers' assignments for orders of fields |
| C149 | `std::regex`: grammar, backtracking matches, search, iteration, the patterns kept in a context (Regex/Model, Cache) | soundness and completeness of backtracking against an inductive language; induction over histories; for each pattern in the source, equality with the matcher written out in the model that uses it |
| C150 | tables of error codes (program and interface file), kinds and types with the functions that print them (Names/Model) | distinctness of the rows by computation over the whole tables; the rest for every number |
| C151 | the full-text calls as a whole: command, shell words, pipe, answer (FullText/Run); what an engine does is a specification (FullText/Engine; what matches a wildcard, a regular expression or nearly is up to the engine), met by a concrete one (FullText/EngineSample) | composition of C60, C75, C76, C108 and the reading of written JSON (Json/Lemmas); induction over the history of calls; a permutation by equal membership of lists without duplicates |
| C152 | handlers as objects in a heap, one step per call, requests interleaved in any way (Web/Life); the promise of the HTTP library as a specification (Web/LifeSpec) | what happens to one handler depends only on its own calls: induction over the history, then cases over how far the request has come |
| C153 | the loops of the flag handlers cut at their calls to gflags, run by any schedule (Web/Race) | invariant: what each request has done of what it was asked, and every flag old or set by something done; induction over the schedule |
| C154 | constructor and destructor of the session manager around the worker of C135, with where the owner is when the worker runs something (Session/Model) | invariant relating that to the worker's state; projection of histories to those of the worker, then C135 |
| C155 | the continuations of storage and meta requests as steps that use a client, answer the caller or neither; destructors that wait for nothing (Outlive/Model); what waiting and use mean is said of histories alone (Outlive/Spec) | invariant of each request (what is left of a continuation once the caller is answered), C49 for requests to several hosts |
| C156 | the maps of all threads (C110) and the shared pointers to connections, of which the last to go closes (Thrift/Life) | invariant: closed are exactly the connections made that neither a caller nor a map has |
| C157 | `Route` and `Router` over the regular expressions of C149 (Regex/Routes) | the answer and the abort of a request characterised by the first route that matches; routes of C61 by C61_expression; counting groups by induction on the grammar |
| C158 | the decoder and encoder of C36 (Expr/Codec), on arbitrary bytes | every step of the decoder gives results whose sizes fit (induction on the depth), so that the round trip of C36 applies to what was decoded |
| C159 | the readers of C67 (Wire/Ops), on arbitrary bytes | an invariant per structure that every field block keeps (Wire/ReadFits: `Keeps`), induction on the nesting of values; then C67 |
| C160 | the readers of C92 (Wire/Response), on arbitrary bytes | invariants as for C159, then C92 |
| C161 | the readers and writers of C67, C92 and C148, composed; the readers by name on arbitrary documents | the image by names is unchanged by the compact image and the reverse, by mutual induction on the value; invariants of the readers as for C159 |
| C162 | the equality of C01 on what the reader of C67 returns | both directions by induction over the value: renaming the values in a map, list, vertex or path commutes with comparing; two edges of different kinds as the counterexample |
| C163 | the evaluator of C38-C45 on what the decoder of C36 returns | the decoded expression evaluates as the original by mutual induction over expressions, as functions of the state; with C45 for a host on which nothing was evaluated before |
| C164 | the aggregates of C47 on what the reader of C67 returns | every step commutes with the change made by the wire (number functions see the same, the others by C162); by induction over the sequence, DISTINCT by C47 |
| C165 | the function bodies of C82-C88 on what the reader of C67 returns | each body commutes with the change made by the wire, by cases over functions and values and induction over lists, properties and steps; a path over two kinds of edges as the counterexample |

Properties whose theorem names end in `_partial` or contain `violated` have status `partial` in
MANIFEST.json unless the exception lies outside what the statement promises; the notes there say what is missing.

## Axioms

Every theorem in MANIFEST.json depends on a subset of `propext`, `Classical.choice`, `Quot.sound`.  `decide +kernel`
is used for closed facts about bytes and short texts; it is checked by the kernel and adds no axiom.

## What is modelled, file by file (paths under src/common)

| files | model | covered | left out |
|-------|-------|---------|----------|
| datatypes/Date.{h,cpp} | Date/Model | all arithmetic, comparison, conversion to and from day numbers; `toString` in Time/Parse | |
| time/TimeConversion.*, TimeUtils.* | Time/Model, Time/Parse | all conversions, map constructors, text readers, shifts | reading the time zone data base (TimezoneInfo.*) |
| time/Duration.*, detail/TscHelper.cpp, WallClock, base/SlowOpTracker | Duration/Model, Duration/Tsc | the stopwatch, all conversions with their double arithmetic, the fast and the system clock | the times at which TscHelper measures its rate (inputs) |
| datatypes/Value.*, List.*, Set.*, Map.* | Value/Model, Value/Arith, Value/F64, Value/Dec, Value/Mem (theorems also in Value/ConvProps, Value/EqFloatProps) | every operator, comparison, conversion, hash; construction, copies, moves, assignment, destruction | allocation failure |
| datatypes/{Vertex,Edge,Path,DataSet}.* | Value/Graph, Value/DataSet | equality, order, hash, append, reverse, duplicates, merge; `toString` in Value/Text | |
| datatypes/HostAddr.*, KeyValue.h | Host/Model | comparison, hash | |
| datatypes/*Ops.inl | Wire/Compact, Fields, Ops, Skip, Stable, Size, Idl; Wire/Named | readers, writers and announced sizes over the compact protocol; names of fields, readers and writers over protocols with names (`translateFieldName`) as trees of named fields | the spelling of the JSON protocol (digits, escapes, base64), which is fbthrift's: texts, numbers and doubles arrive as sent, and a field that is passed over is passed over whole |
| graph/*.h, graph/*Ops.inl | Wire/Response, Size, Named | equality, clear, readers, writers and announced sizes | |
| base/ConcurrentLRUCache.h | Cache/Model | all operations, per shard lock | |
| base/Cord.*, ICord.h | Cord/Model | writes, visits | allocation failure |
| base/Status.*, StatusOr.h, ErrorOr.h, EitherOr.h | Status/Model | all constructors, assignments, accessors | |
| base/CollectNSucceeded.inl | Collect/Model | all schedules of completions | |
| base/MurmurHash2.h | Part/Model | the hash and the partition function | |
| concurrent/* | Latch/Model | all schedules | fairness of the operating system |
| thread/GenericWorker.*, GenericThreadPool.* | Worker/Model, Pool, Timers | queue, timers, stop, schedules | libevent itself |
| algorithm/ReservoirSampling.h | Reservoir/Model | the sampling loop with draws as input | |
| expression/*.cpp, *.h | Expr/Ast, Codec, Ops, Eval, Refs, Objects, Frame, Compare, Text | encode, decode, eval, ==, clone, toString | visitors |
| function/AggFunctionManager.* | Agg/Model | all aggregates | |
| function/FunctionManager.* | Func/Model, Func/Text | the table and every function; libm functions and random draws are parameters | |
| clients/meta/MetaClient.* | Meta/Cache, Refresh, LoadData, LoadSchemas, Leader, Config, Retry, Users, Ready, Heartbeat, FtIndex, Admin | caches, diffs, refresh, leader, configuration, retry, logins, waiting, heartbeat, administrative calls | |
| meta/ServerBasedSchemaManager, ServerBasedIndexManager | Meta/Manager | all lookups | `init` |
| process/ProcessUtils | Process/Model, Process/Daemon, Fs/Stat | everything | |
| thread/NamedThread | Process/Daemon | gettid, names | |
| base/Memory | Base/Memory | everything | `sysinfo` (input) |
| http/HttpClient, hdfs/HdfsCommandHelper | Http/Model | command texts, answers | texts of errors |
| thrift/ThriftClientManager | Thrift/Model, Thrift/Life | `client`; who keeps a connection open | sockets and channels (inputs) |
| clients/meta/FileBasedClusterIdMan.cpp | Fs/ClusterId | persist/read with crash points | |
| clients/storage/* | Storage/Cluster, Collect, Client; Part/Model | splitting, collecting, request building, retry | RPC transport |
| meta/NebulaSchemaProvider.*, SchemaProviderIf.h | Meta/Schema, Meta/SchemaIter | layout, lookups, iterators, life time | |
| meta/GflagsManager.cpp | Conf/Flags, Meta/Config | modes, declaration, value conversion | |
| network/NetworkUtils.cpp | Net/Model, Net/Ports | text forms of hosts and addresses, devices, resolution, ports | `getifaddrs`, `getaddrinfo` and /proc (inputs) |
| base/SignalHandler.* | Signal/Model | install, delivery, dispatch | texts of log lines |
| base/ObjectPool.h | Pool/Model | add, clear, empty, destructor | |
| base/Base.cpp | Base/Hex | toHexStr | version texts |
| base/Logging.h | Logging/Model | LOG, PLOG, SYSLOG, their IF, EVERY_N and FIRST_N forms, DLOG | what glog does with a message; LOG_TO_STRING, LOG_STRING |
| fs/FileUtils.* | Fs/Path, Dir, Remove, Lines, Listing, Stat, Temp | paths, makeDir, remove, iterators, listings, stat wrappers | `realPath`, `rename`, `isTTY` (system calls) |
| stats/StatsManager.* | Stats/Model | registration, parsing, reading | the decay of folly's time series |
| session/SessionManager.h | Session/Model | construction and destruction with the worker | the map of sessions (used by derived classes only) |
| storage/StorageClientBase.inl, InternalStorageClient.cpp, meta/MetaClient.cpp | Outlive/Model | who may still use a client when | continuations of the caller; heartbeats of the client's own thread |
| webservice/* | Web/Router, Regex/Routes, Web/Handlers, Web/Service, Web/Life, Web/Race | routing, flags, stats, status, life of the service and of the handlers | the HTTP server itself |
| uses of `std::regex` | Regex/Model, Cache | the grammar of the patterns in the source and its meaning as ECMAScript documents it; `getRegex` | lazy and counted repetition, look-ahead, back references, named classes, locales, exhaustion of the stack by libstdc++'s recursion |
| conf/Configuration.* | Conf/Model, Json/Model | all functions; folly JSON as documented | |
| plugin/fulltext/*, encryption/* | FullText/Model, Run | commands, ids, answers, the calls as a whole | the shell beyond plain words, curl, the engine, MD5 |

Not modelled at all: version; thrift transport, folly event loops (only their ordering),
regular expressions beyond the grammar of Regex/Model, memory allocation failure, performance.

## Where the code does not do what a user would expect

Most are theorems with `violated` in their names; the others are stated in the comment of the definition concerned:

* Dates: day arithmetic treats 2100 as a leap year (C07); the time zone offset of the local time has the wrong sign (C05, C137).
* Values: equality of numbers is not transitive and not compatible with the order for large integers against floats (C10, C11).
* Values: assigning a value from a part of itself or to a part of itself, or setting it from its own payload, uses freed memory or leaks (C127).
* Expressions: decoding a truncated text reads outside the buffer (C37); `==` ignores DISTINCT of aggregates, compares text searches by
  address and follows null pointers (C94); `clone` drops the options of text searches (C95); 7/2 and 7.0/2 compare equal.
* Functions: `abs` of the least integer, `head`/`last` of an empty list, `lpad` with an empty pad text, `range` at the limits, `hash` of lists
  containing maps, `tointeger` of NaN, `datasetrowcol` of a short row (C85); declared type of `strcasecmp`, purity of `rand`, negative `rand32` (C83, C84).
* Paths: the first edge of a built path is not checked against the first vertex, and ids are not checked (C90).
* Graph answers: `AuthResponse ==` compares a time zone name with itself, `clear()` keeps the time zone, plan descriptions skip fields (C93).
* Meta client: `loadData` checks the wrong answer for listing hosts, `loadLeader` keeps stale names, schemas depend on the order of the answer, the
  index name map is written outside the lock (C80, C57); nested configuration is quoted twice, mode changes are ignored (C65).
* Meta client: `stop` destroys the worker before it clears the running flag, so that a waiter can use a null pointer (C104); an unreadable cluster id
  file is overwritten by the next heartbeat (C105).
* Storage client: `InternalStorageClient::getValue` computes the part of a key with the number of the space instead of the number of parts (C132).
* Meta client: several members are read or written without their lock (index names, full text services and indexes, the meta leader, the listener, the worker); each function that does so is shown to race (C133).
* Other objects: `readAllValue`, the tallies of the LRU cache, `ObjectPool::empty` and `Latch::isReady` read without the lock (C134).
* Worker: starting a stopped worker not waited for calls `std::terminate`; each restart leaks an event base, an eventfd and an event; destroying a worker with an active timer calls `event_free` after `event_base_free`; a task added during `start` can end the thread; a pool whose `start` failed indexes beyond its workers (C135).
* Futures: `setException(ex)` of a caught `const std::exception&` slices the exception; non-standard exceptions of void tasks and all exceptions of repeated tasks end the process (C136).
* Time zone: `localDateTime`, `localDate` and `localTime` subtract the offset of the zone from UTC; a failed region lookup leaves a null zone that the next conversion dereferences (C137).
* Temporary directories: `TempDir::path()` is null, not empty, after a failure; sockets and pipes inside are left behind silently (C139).
* Memory: the watermark is computed in `float` and wrong above 16 GB (C140).
* Daemons: a standard input that was closed stays closed and is then taken by another file; output in the buffers is written twice (C141).
* Threads: `gettid` gives the old id after a fork; names are cut at 15 bytes (C142).
* Files: sizes and times of links instead of files, long links cut silently (C143).
* Expressions: `++` and `--` of a versioned variable read an object of another class (C91); operands are references, so a later operand that assigns the variable changes or frees an earlier one (C144).
* Objects: a part used in two expressions is changed in both by a setter; copies of shared parts grow exponentially; a setter can close a cycle; `addArgument` keeps the function found for the old number of arguments, a copy finds another (C145).
* Schemas: `it + n` moves `it` itself; names are cut at a NUL; the column of the life time is not checked (C146).
* Logging: above level FATAL, LOG_IF(FATAL, true) and PLOG(FATAL) do not end the process; LOG_EVERY_N evaluates its number twice, counts in a plain `int` that overflows and that threads race for; LOG_IF_EVERY_N counts executions whose condition fails (C147).
* Protocols with names (JSON): the name of the field of a set is translated to T_STRUCT (SetOps.inl:33) while its reader accepts T_SET (:108): sets arrive empty, at any depth (C148).
* `text =~ ".*"` is false for texts of several lines: `.` does not match the ends of lines (C149).
* The type name of the null OUT_OF_RANGE is `__UNKNOWN__`: it is missing in the table of nulls (C150).
* Web service: the handler of a request for the status that ends with an error is never deleted: `StatusHandler::onError` lacks `delete this` (C152).
* Web service: a route with groups of its own ends the process on every request it matches; a route that ends in `$` does on a trailing slash (C157).
* Expressions: bytes with a generated id whose field is empty decode, and the host ends when it encodes the expression again (C158).
* Web service: requests that set several flags are not atomic: two leave a mixture, a reader sees half of one (C153).
* Session manager: its worker is stopped by the base class's destructor, when the derived part is gone already; armed timers make it use freed memory (C154).
* Requests to a single storage host: when the call fails the caller is answered before the leader cache is told, so a caller that then destroys the client has it used after it is freed; no destructor waits for requests (C155).
* A text of more than 256 bytes is not found by itself in the full-text index: it is cut when stored, not when searched for (C151).
* Port numbers in the tables of sockets are taken from all hexadecimal digits and cut to 16 bits, and an exception is thrown if they exceed 64 bits (C114_digits_violated).
* Sizes: the announced size is a 32-bit number and wraps, so that a list of two 2 GiB strings announces 34 bytes; `ExecutionResponse::serializedSize` cannot be instantiated (C131).
* Web service: a second `start()` after a failed one returns OK; the destructor of an unstarted service follows a null pointer; `start()` may return while the listener is about to use its condition variable (C130).
* Meta client: a tag and an edge of the same number share their default values (C129).
* Meta client: looking up an unknown full-text index succeeds and inserts an empty one under a read lock (C106).
* Processes: the check and the writing of a pid file are not atomic, exit statuses are ignored (C108); requests and paths are not quoted for the
  shell (C109); connections to host names are stored under the resolved address but looked up by name (C110).
* Configuration: comment marks inside strings are cut, NUL ends a file, non-objects are accepted, a failed array fetch leaves a prefix, 1.0 becomes an
  integer (C96-C98).
* Flags: entries of nested flags that are no scalars vanish, large unsigned values and non-objects throw (C99).
* Web service: requests that end the process (C100, C101); unsigned values shown negative (C101).
* Files: an iterator over a link to a device or to an unreadable directory ends the process; an unreadable directory is listed as empty (C128).
* Full text: index names and credentials are not quoted for the shell (C60).
* Signals: handlers of SIGCHLD run twice, a signal between `sigaction` and the entry into the table ends the process (C111).
* Object pool: an object added twice is deleted twice, a destructor that uses the pool blocks for ever (C112).
* Network: interfaces without an address are read through a null pointer (C113); a dynamic range that begins at 1025 or below gives port 0 or an
  undefined draw (C114).
* Clock: the fast clock goes back after a new measurement, drifts because ticks per microsecond are a whole number, and is undefined below 1 MHz (C116).
* Values: divisors up to 1e-8 count as zero (C117).
* Values: texts do not escape quotation marks, keys are not quoted, the empty set looks like the empty map (C119).
* Expressions: texts of casts, of properties, of inner variables, of constant containers and of aggregates are ambiguous; `toString` of some expressions is
  undefined (C120).
* Dates: texts that end after the year, the month or the date leave members of `tm` unset that are then read; fractions of a second are written but not
  read; second 60 is accepted (C118).

## How the last wrong programs were tested

Most entries of seeded/LOG.jsonl come from a rebuild of the scratch copy. The last ones (the remote theorems of C164 and C165, `C36_fatal`, and the status texts of C26)
were checked faster: only the edited model and the one file with the theorems were recompiled, and the modules between them were taken as built from the unedited model.
A proof that uses facts stored in those modules can then fail or pass for the wrong reason. The three `formatNoArgs` edits first showed this and were repeated with the module between recompiled; the others were not repeated.
