{"id": "C01", "title": "Date <-> day number is a bijection", "statement": "Converting a Date to its day number and back returns the same Date for every calendar-valid Date of the type's calendar, and converting any in-range day number to a Date and back returns the same number.", "quantifier": "every Date (year -32768..32767, month, day) valid in the calendar used by Date arithmetic; every day number in range", "why_tests_cant": "24 million dates with month/leap boundaries; a table of samples misses an off-by-one at one boundary", "anchors": ["src/common/datatypes/Date.cpp: Date::toInt, Date::fromInt, kDaysSoFar, kLeapDaysSoFar"]}
{"id": "C02", "title": "Adding days to a Date is an action of the integers", "statement": "(d + m) + n = d + (m + n), (d + n) - n = d, d + 0 = d, the difference of day numbers of d + n and d is n, and + is strictly monotone in n, as long as the intermediate results stay in the representable range. When the result leaves the range the outcome is not a Date obtained by exact arithmetic.", "quantifier": "every valid Date and all integers m, n whose results are in range", "why_tests_cant": "infinitely many shifts across month, leap and year boundaries", "anchors": ["src/common/datatypes/Date.cpp: Date::operator+, Date::operator-", "src/common/datatypes/Value.cpp: operator+, operator-"]}
{"id": "C03", "title": "Dates, times, datetimes, host addresses and key/value pairs are totally ordered consistently with equality", "statement": "operator< on Date, Time, DateTime and HostAddr is irreflexive, transitive and total, and two values are unordered exactly when operator== holds; on valid Dates the order agrees with the day-number order. Equal values have equal hashes.", "quantifier": "all pairs and triples of values", "why_tests_cant": "ordering axioms range over all triples", "anchors": ["src/common/datatypes/Date.h: Date::operator<, Time::operator<, DateTime::operator<", "src/common/datatypes/HostAddr.h", "src/common/datatypes/KeyValue.h"]}
{"id": "C04", "title": "Unix seconds <-> DateTime conversion is exact", "statement": "Converting a UTC second count to a DateTime gives a calendar-valid Gregorian date and time of day, and converting back gives the same second count; converting any valid DateTime to seconds and back gives the same DateTime.", "quantifier": "every int64 second count whose year is representable; every valid DateTime", "why_tests_cant": "leap/century/400-year boundaries, negative counts; unbounded domain", "anchors": ["src/common/time/TimeConversion.cpp: TimeConversion::dateTimeDiffSeconds, unixSecondsToDateTime", "src/common/time/TimeConversion.h: isLeapYear, dateTimeToUnixSeconds"]}
{"id": "C05", "title": "Time zone shifting is invertible", "statement": "Shifting a DateTime (or Date, or Time modulo one day) by an offset and then by the opposite offset returns the original, and shifting composes additively.", "quantifier": "every valid DateTime/Time and every pair of offsets whose results are representable", "why_tests_cant": "unbounded domain; borrow over midnight, month and year boundaries", "anchors": ["src/common/time/TimeConversion.h: dateTimeShift, dateShift, timeShift"]}
{"id": "C06", "title": "Date and time construction from a map accepts exactly valid values", "statement": "Building a date/time/datetime from a map succeeds exactly if every key is a known component with an in-range integer value and the day exists in the Gregorian month; the result then carries exactly these components and defaults for the missing ones.", "quantifier": "every map from names to values", "why_tests_cant": "all combinations of keys, types and boundary values", "anchors": ["src/common/time/TimeUtils.cpp: dateTimeFromMap, dateFromMap, timeFromMap", "src/common/time/TimeUtils.h: validateDate"]}
{"id": "C07", "title": "Date arithmetic stays inside the calendar accepted by the validator", "statement": "Adding days to a Date accepted by the Gregorian validator yields a Date accepted by the same validator. (The code violates this: Date arithmetic uses the every-fourth-year leap rule.)", "quantifier": "every validator-accepted Date and every shift", "why_tests_cant": "needs a counterexample or a proof over the whole calendar", "anchors": ["src/common/datatypes/Date.cpp", "src/common/time/TimeUtils.h: validateDate", "src/common/time/TimeConversion.h: isLeapYear"]}
{"id": "C08", "title": "NULL and EMPTY propagate through every arithmetic operator", "statement": "If an operand of + - * / % is NULL the result is NULL; if one operand is EMPTY and none is NULL the result is EMPTY; when both are NULL the left one wins; no arithmetic on NULL or EMPTY yields a non-null non-empty value.", "quantifier": "all pairs of values of all types, including nested collections", "why_tests_cant": "product of 16 types x null kinds x contents", "anchors": ["src/common/datatypes/Value.cpp: operator+, operator-, operator*, operator/, operator%"]}
{"id": "C09", "title": "Integer arithmetic is exact or reports overflow", "statement": "For integer operands + - * and unary minus return the mathematically exact result if it fits in 64 bits and the overflow NULL otherwise; / and % return the division-by-zero NULL for a zero divisor and otherwise the exact truncated quotient/remainder, or overflow; never a wrapped value. Undefined behaviour is reached for no operands (the code violates this last part for minimum % -1).", "quantifier": "all pairs of 64-bit integers", "why_tests_cant": "2^128 operand pairs", "anchors": ["src/common/datatypes/Value.cpp: operator+, operator-, operator*, operator/, operator%, unary operator-"]}
{"id": "C10", "title": "The sorting order on values is a strict weak order", "statement": "operator< on values is a strict weak order (irreflexive, asymmetric, transitive, ties transitive), so that sorting rows is well defined; EMPTY comes before and NULL after every other value, values of different types are ordered by type, and scalars and lists are compared by their contents. (The code violates this for integers beyond 53 bits mixed with floats, for NaN, and for paths whose vertices share an id but differ in tags.)", "quantifier": "all triples of values of any nesting", "why_tests_cant": "triples of nested values", "anchors": ["src/common/datatypes/Value.cpp: operator<", "src/common/datatypes/List.h: operator<"]}
{"id": "C11", "title": "Value equality is an equivalence compatible with hashing and order", "statement": "operator== is reflexive, symmetric and transitive, equal values have equal hashes, and equal values are not ordered by operator<. (The code violates this: the tolerance on floats breaks transitivity and no hash can be compatible with it; ids that are different kinds of NULL are equal with different hashes; an edge and its reversal are equal but ordered.)", "quantifier": "all triples of values of any nesting", "why_tests_cant": "triples of nested values; epsilon chains", "anchors": ["src/common/datatypes/Value.cpp: operator==, std::hash<Value>", "src/common/datatypes/List.h, Map.h, Set.h"]}
{"id": "C12", "title": "Three-valued comparison is consistent", "statement": "equal is NULL exactly if an operand is NULL and otherwise the boolean of ==; lessThan is NULL if an operand is NULL or the types cannot be compared, EMPTY if an operand is EMPTY, and otherwise a boolean; equal is symmetric; lessThan is never true in both directions; lessThan true implies equal false. (The code violates the last part for an edge and its reversal and for floats inside lists.)", "quantifier": "all pairs of values", "why_tests_cant": "all type pairs and contents", "anchors": ["src/common/datatypes/Value.cpp: Value::equal, Value::lessThan"]}
{"id": "C13", "title": "Value-level AND/OR/NOT obey three-valued logic", "statement": "On booleans, NULL and EMPTY the operators && || ! give the three-valued truth tables: false dominates &&, true dominates ||, NULL otherwise wins over EMPTY; any other operand type gives the bad-type NULL; the result is commutative up to the kind of NULL; De Morgan's laws hold. (The code violates the dominance part at the level of values: NULL wins.)", "quantifier": "all pairs of values", "why_tests_cant": "all type pairs", "anchors": ["src/common/datatypes/Value.cpp: operator&&, operator||, operator!"]}
{"id": "C14", "title": "String and list concatenation with +", "statement": "+ on strings and lists is concatenation: the result lists the elements of the operands in order; list + scalar appends, scalar + list prepends; + is associative on lists and on strings.", "quantifier": "all strings and lists", "why_tests_cant": "unbounded contents", "anchors": ["src/common/datatypes/Value.cpp: operator+"]}
{"id": "C15", "title": "Bitwise operators are bitwise", "statement": "& | ^ on integers act bit by bit on the 64-bit two's complement representation; on other types NULL/EMPTY/bad-type propagate.", "quantifier": "all pairs of values", "why_tests_cant": "2^128 operand pairs", "anchors": ["src/common/datatypes/Value.cpp: operator&, operator|, operator^"]}
{"id": "C16", "title": "Numeric conversions never wrap", "statement": "Converting a float value to integer truncates toward zero and saturates at the 64-bit limits. Exactly the words true and false, in any case, convert to booleans. A decimal text converts to the nearest float; text of an integer converts back to it, one with a point to the integer its float converts to, and out-of-range text is reported; NULL and EMPTY convert to NULL. (The code violates: a text with a point beyond the 64-bit limits is undefined behaviour instead of reported; what follows a NUL byte in a text is not seen.)", "quantifier": "all values, all doubles", "why_tests_cant": "all doubles", "anchors": ["src/common/datatypes/Value.cpp: Value::toInt, toFloat, toBool"]}
{"id": "C17", "title": "Edge equality identifies an edge with its reversal", "statement": "Edge equality is an equivalence, an edge (of a type that is not 0) equals its reversed copy, equal edges have equal hash, and exactly the edges with the same ranking and properties, and the same type and endpoints or the opposite type and swapped endpoints, are equal; the name is not compared. An edge of type 0 is not equal to its reversal.", "quantifier": "all edges", "why_tests_cant": "all combinations of direction, properties", "anchors": ["src/common/datatypes/Edge.cpp: operator==, reverse", "src/common/datatypes/Edge.h: std::hash<Edge>"]}
{"id": "C18", "title": "Path reversal is an involution that mirrors the vertices and edges", "statement": "Reversing a path twice gives the original path; reversing lists the same vertices in the opposite order and each step becomes its opposite; length is unchanged.", "quantifier": "all paths of any length", "why_tests_cant": "unbounded length", "anchors": ["src/common/datatypes/Path.cpp: Path::reverse"]}
{"id": "C19", "title": "Duplicate detection on paths is exact", "statement": "hasDuplicateVertices is true exactly if some vertex occurs twice among the start and the step destinations; hasDuplicateEdges is true exactly if two steps denote the same edge.", "quantifier": "all paths of any length", "why_tests_cant": "unbounded length", "anchors": ["src/common/datatypes/Path.cpp: hasDuplicateVertices, hasDuplicateEdges"]}
{"id": "C20", "title": "Ordering of paths and steps distinguishes unequal ones", "statement": "Two steps neither of which is less than the other are equal. (The code violates this: the ranking is never compared.) Otherwise the step order is a strict weak order.", "quantifier": "all pairs of steps", "why_tests_cant": "needs a counterexample or a universal proof", "anchors": ["src/common/datatypes/Path.h: Step::operator<, Path::operator<"]}
{"id": "C21", "title": "Merging data sets keeps columns aligned", "statement": "After merging two data sets row by row, the value under each column name of each input is found under that column name in the result. (The code violates this: names are appended, values prepended.) append keeps rows in order and rejects different columns.", "quantifier": "all data sets of any size", "why_tests_cant": "unbounded sizes", "anchors": ["src/common/datatypes/DataSet.h: merge, append, colValues"]}
{"id": "C22", "title": "LRU cache behaves as a bounded least-recently-used map", "statement": "After any sequence of operations the cache holds at most its capacity of entries, a lookup returns the last value inserted for the key unless it was evicted or erased, and the entry evicted on overflow is the one least recently inserted or found.", "quantifier": "every sequence of insert/find/evict operations of any length", "why_tests_cant": "all histories", "anchors": ["src/common/base/ConcurrentLRUCache.h: LRU"]}
{"id": "C23", "title": "Sharded cache is equivalent to independent shards and counts hits and evictions exactly", "statement": "Every operation on a key affects only the shard of its hash; total counters equal the number of lookups, hits and evictions; putIfAbsent returns the earlier value and never replaces it.", "quantifier": "every sequence of operations, every hash function and bucket exponent", "why_tests_cant": "all histories and interleavings at operation granularity", "anchors": ["src/common/base/ConcurrentLRUCache.h: ConcurrentLRUCache"]}
{"id": "C24", "title": "Cord contents equal the concatenation of the writes", "statement": "After any sequence of writes the size and the string of a Cord equal those of the concatenation of the written bytes, independent of the block size; visiting the blocks in order yields exactly these bytes; clear makes it empty and reusable; appending one Cord to another concatenates. (The code violates the last part: appending an empty Cord copies from a null pointer, a Cord appended to itself never ends once it has more than one block, and different block sizes fail.) Numbers, truth values, strings and texts written with << are appended as their bytes, so that sequences of numbers of the same types with the same contents are the same.", "quantifier": "every sequence of writes of any lengths and every block size", "why_tests_cant": "boundary cases depend on write size modulo block size; all histories", "anchors": ["src/common/base/Cord.cpp: write, applyTo, appendTo, toString, operator<<, clear"]}
{"id": "C25", "title": "Inline-buffer Cord contents equal the concatenation of the writes", "statement": "The same for ICord: size, str and appendTo return the concatenation of all writes; visiting the blocks, appending an ICord to another, and writing after clear do too. (The code violates the last three: if the contents fill whole blocks a visitor, and appending to another, never see the last block; a write after clear goes through a null pointer.) Numbers, truth values, strings and texts written with << are appended as their bytes.", "quantifier": "every sequence of writes, every inline size", "why_tests_cant": "boundary cases depend on write size modulo block size", "anchors": ["src/common/base/ICord.h"]}
{"id": "C26", "title": "Status keeps its code and message", "statement": "A Status built with a code and a message reports exactly this code and message; copies and moves preserve it and moved-from is OK; equality is equality of codes. Messages of 65536 bytes or more are truncated (violation exhibited). The printed form of an error is a word, a colon and a space, and the message, so that code and message can be read back from it; \"listener not found\" and the general error break this (violations exhibited). A message given as a format with its percent signs doubled arrives, up to 255 bytes.", "quantifier": "all codes and messages of any length", "why_tests_cant": "lengths around 2^16", "anchors": ["src/common/base/Status.h, Status.cpp"]}
{"id": "C27", "title": "StatusOr holds exactly one of status or value", "statement": "In every history of construction, assignment, copy, move and destruction of StatusOr or EitherOr variables exactly one of value, error or nothing is held and the predicates tell which; value access is defined exactly when a value is held; a moved-from object is empty; nothing is destroyed twice or leaked. (The code violates it when an object is assigned a reference to its own value, which is read after it was destroyed.)", "quantifier": "every history of operations", "why_tests_cant": "all histories", "anchors": ["src/common/base/StatusOr.h", "src/common/base/EitherOr.h"]}
{"id": "C28", "title": "Reservoir sampling keeps a bounded sample of what was offered", "statement": "After any sequence of offers with any random choices the sample has min(k, number offered) elements, each of which was offered, and the first k offers are all kept until replaced; every offered element has the same chance k/n to be in the sample. (The code violates the last part: after n>k offers the first k have chance (k-1)/(n-1) and the others k/(n-1), because the draw for the n-th offer ranges over n-1 values; the (k+1)-th offer always enters.)", "quantifier": "every sequence of offers and random draws", "why_tests_cant": "probabilistic property over all draws", "anchors": ["src/common/algorithm/ReservoirSampling.h"]}
{"id": "C29", "title": "collectNSucceeded completes exactly once and with enough successes", "statement": "For every order in which the input futures complete, the result future is fulfilled exactly once, no earlier than n successes or all completions; when n successes occurred before, the result contains at least n successful results, each tagged with its index. (The code violates the reading that the result holds only successful ones: failed results that completed before are in it too.)", "quantifier": "every completion order, every success predicate, exceptions", "why_tests_cant": "all schedules", "anchors": ["src/common/base/CollectNSucceeded.inl"]}
{"id": "C30", "title": "Latch releases waiters exactly after the count reaches zero", "statement": "For every schedule, wait returns only after down was called count times, after that every waiter can return, extra down calls are errors, and isReady is monotone.", "quantifier": "every interleaving of down, downWait, wait by any number of threads", "why_tests_cant": "all schedules", "anchors": ["src/common/concurrent/Latch.cpp"]}
{"id": "C31", "title": "Barrier releases generations together", "statement": "For every schedule, no thread leaves the barrier in a generation before all parties have arrived, the completion callback runs exactly once per generation before any thread leaves, and once it has run every waiter of that generation can leave; the barrier is reusable. (The code violates the release part when the callback throws: the generation has ended but the waiters are never notified.)", "quantifier": "every interleaving of any number of threads and generations", "why_tests_cant": "all schedules", "anchors": ["src/common/concurrent/Barrier.cpp"]}
{"id": "C32", "title": "Worker runs tasks in submission order, each once", "statement": "Tasks added to one worker run in the order added, at most once, none added before stop is lost; timer ids are distinct among live timers; a timer without interval fires at most once; a timer that has not been purged stays armed; a purged timer does not fire again once everything has settled. (The code violates the last part: a timer added and purged while the worker is between taking new timers and taking purges fires forever. Also addRepeatTask(0, ...) runs only once, and timer ids repeat after 2^48 timers.)", "quantifier": "every interleaving of submissions and worker steps", "why_tests_cant": "all schedules", "anchors": ["src/common/thread/GenericWorker.h, GenericWorker.cpp"]}
{"id": "C33", "title": "Thread pool spreads tasks round robin and finds timers again", "statement": "The k-th task goes to worker k mod n; a timer id issued by the pool decodes to the worker and the worker-local id it was issued for, so purging it reaches the right timer, and no two repeated tasks get the same id. (The code violates this with more than 2^16 workers, and a pool started with zero threads divides by zero.)", "quantifier": "every pool size, every sequence of calls, every timer id", "why_tests_cant": "id packing over 2^64 values", "anchors": ["src/common/thread/GenericThreadPool.h, GenericThreadPool.cpp"]}
{"id": "C34", "title": "Stopwatch accumulates exactly the running intervals", "statement": "A Duration's elapsed time is the sum of the intervals between resume (or reset) and pause (or now), for every history of reset/pause/resume, also across a wrap of the tick counter; paused intervals do not count; the units are that time rounded. (The code violates the claim that a paused watch shows one time: the tick rate is measured anew every two seconds and applied to the old ticks.)", "quantifier": "every history of operations and clock values", "why_tests_cant": "all histories", "anchors": ["src/common/time/Duration.cpp"]}
{"id": "C35", "title": "Vertex ids map to a valid, stable partition", "statement": "For every vertex id and every positive partition count the partition number is between 1 and the number of partitions and depends only on the id bytes: an id of exactly 8 bytes is read as a little-endian 64-bit number, every other id is hashed with the 64-bit MurmurHash2 of the C++ standard library, and the result is taken modulo the partition count plus one. (Exhibited: ids of another length that differ only after a NUL byte always collide; a partition count of zero is a division by zero; the key-value read of the storage client passes the space id where the partition count is expected, so it can ask a partition that does not hold the key or does not exist.)", "quantifier": "every id string and every positive partition count", "why_tests_cant": "unbounded id strings", "anchors": ["src/common/clients/meta/MetaClient.cpp: partId", "src/common/base/MurmurHash2.h: MurmurHash2", "src/common/clients/storage/InternalStorageClient.cpp: getValueImpl"]}
{"id": "C36", "title": "Expression encoding round-trips", "statement": "Decoding the encoding of an expression returns an expression equal to it, for every expression built from the decodable kinds, whatever its nesting; the decoder consumes exactly the bytes of the encoding; different expressions have different encodings. (The code violates this for column expressions, for aggregates without argument and for ranges without bounds; constants that hold edges, steps, NaNs or values with unordered duplicates come back as the wire format of values delivers them, see C67.) Encoding ends the process exactly for the expressions that contain, anywhere, an attribute of a label, a versioned variable, a text search or a UUID without a field.", "quantifier": "every expression tree of any depth", "why_tests_cant": "unbounded trees", "anchors": ["src/common/expression/Expression.cpp: encode, decode, Encoder, Decoder", "src/common/expression/*.cpp: writeTo, resetFrom"]}
{"id": "C37", "title": "Decoding never reads outside the buffer", "statement": "On every input byte string decoding either stops with a checked failure or returns an expression, and never reads past the end of the input; a truncated encoding never decodes to an expression; what follows the encoding does not influence the result. (The code violates the bound: element counts and type numbers are read unchecked; the overrun is at most eight bytes.)", "quantifier": "every byte string", "why_tests_cant": "all byte strings", "anchors": ["src/common/expression/Expression.cpp: Decoder::readSize, readStr, readKind, readValueType"]}
{"id": "C38", "title": "Logical expressions follow the documented three-valued rules", "statement": "AND/OR/XOR over any number of operands evaluate left to right with short-circuit; false (true) dominates AND (OR); otherwise bad-type, NULL and EMPTY precedence; the result does not depend on operand order except for evaluation errors. (AND and OR violate the documented precedence and order independence: an EMPTY operand after a NULL operand yields BAD_TYPE, exhibited.)", "quantifier": "every operand list of any length and values", "why_tests_cant": "unbounded operand lists", "anchors": ["src/common/expression/LogicalExpression.cpp"]}
{"id": "C39", "title": "Membership tests follow three-valued logic", "statement": "x IN list/set/map is true if an equal element exists, NULL if none exists but NULL is involved, false otherwise, and NOT IN is its negation.", "quantifier": "every value and collection", "why_tests_cant": "unbounded collections", "anchors": ["src/common/expression/RelationalExpression.cpp"]}
{"id": "C40", "title": "Relational expressions are mutually consistent", "statement": "<=, >, >=, != evaluate to the three-valued combination of < and =; exactly one of <, =, > is true for comparable operands. (The code violates the last part for an edge and its reversal, for maps and for NaN; exhibited.)", "quantifier": "all operand pairs", "why_tests_cant": "all type pairs", "anchors": ["src/common/expression/RelationalExpression.cpp"]}
{"id": "C41", "title": "String predicates CONTAINS / STARTS WITH / ENDS WITH", "statement": "They are true exactly for substring, prefix and suffix; the negated forms are the negation; NULL/EMPTY/bad type otherwise.", "quantifier": "all pairs of strings", "why_tests_cant": "unbounded strings", "anchors": ["src/common/expression/RelationalExpression.cpp"]}
{"id": "C42", "title": "Subscripts and ranges select the documented elements", "statement": "list[i] is the element at i or, for negative i, counted from the end, and otherwise the out-of-range NULL; list[lo..hi] is the sub-list of positions lo..hi-1 after clamping, with negative bounds counted from the end.", "quantifier": "all lists and all 64-bit index values", "why_tests_cant": "unbounded lists, index extremes", "anchors": ["src/common/expression/SubscriptExpression.cpp"]}
{"id": "C43", "title": "CASE selects the first matching branch", "statement": "The value is that of the first branch whose condition holds, else of the default, else NULL; later branches are not evaluated.", "quantifier": "every list of branches", "why_tests_cant": "unbounded lists, side effects", "anchors": ["src/common/expression/CaseExpression.cpp"]}
{"id": "C44", "title": "Quantifier predicates, list comprehension and reduce compute the fold they denote", "statement": "all/any/single/none are true exactly if all/some/exactly one/no element satisfies the condition; list comprehension is filter then map in order; reduce is the left fold.", "quantifier": "every list, condition and mapping", "why_tests_cant": "unbounded lists, arbitrary inner expressions", "anchors": ["src/common/expression/PredicateExpression.cpp, ListComprehensionExpression.cpp, ReduceExpression.cpp"]}
{"id": "C45", "title": "Evaluating an expression depends only on the expression and the context", "statement": "Evaluating the same expression object twice in contexts giving the same values yields the same result. (Violated for attribute expressions on edges, exhibited.)", "quantifier": "every expression and history of evaluations", "why_tests_cant": "all histories", "anchors": ["src/common/expression/AttributeExpression.cpp"]}
{"id": "C46", "title": "Type casting table", "statement": "A cast between types succeeds statically exactly for the listed pairs, and evaluating an accepted cast gives a value of the target type, NULL or EMPTY.", "quantifier": "all type pairs and values", "why_tests_cant": "all values", "anchors": ["src/common/expression/TypeCastingExpression.cpp"]}
{"id": "C47", "title": "Aggregates equal their mathematical definition", "statement": "Feeding any sequence of values, COUNT, SUM, AVG, MAX, MIN, BIT_AND/OR/XOR, COLLECT and COLLECT_SET produce the count/sum/mean/extremum/bit fold/list/set of the values that are neither NULL nor EMPTY; sums and means of any finite numbers are exact up to the stated rounding error of double arithmetic (and exactly right for integers); STD of up to 2^40 finite numbers of size at most M is the square root of a number within n M^2 / 2^45 of the population variance, and never overflows for M up to 2^490; an error result sticks; a value of the wrong type gives an error; DISTINCT gives the aggregate of the values without repetitions; no sequence crashes; the order of input is irrelevant for COUNT, MAX, MIN, bit operations on integers. (The order matters for MAX and MIN over not-a-number, exhibited.)", "quantifier": "every input sequence", "why_tests_cant": "unbounded sequences", "anchors": ["src/common/function/AggFunctionManager.cpp"]}
{"id": "C48", "title": "Storage requests are partitioned exactly", "statement": "Splitting the ids of a request by host and part sends every id exactly once, to the leader of the part its key hashes to, in the order of the request; nothing is sent elsewhere; if a leader is unknown the request fails as a whole. (The code violates this for a space without parts: the process aborts; exhibited.)", "quantifier": "every list of ids and every leader map", "why_tests_cant": "unbounded id lists", "anchors": ["src/common/clients/storage/StorageClientBase.inl: clusterIdsToHosts, getHostParts"]}
{"id": "C49", "title": "A multi-host response completes exactly once, after all hosts answered", "statement": "For every order in which sends and answers interleave the combined response is delivered exactly once, after the last host answered, and contains the answer or the failure of each host.", "quantifier": "every interleaving of sends and answers", "why_tests_cant": "all schedules", "anchors": ["src/common/clients/storage/StorageClientBase.inl: ResponseContext, collectResponse, getResponseImpl"]}
{"id": "C50", "title": "Completeness of a response is the percentage of hosts that succeeded", "statement": "completeness is the percentage of hosts that did not fail, between 0 and 100, is 100 exactly if no host failed, and succeeded() means 100. (The code violates this for a call without requests: it succeeds with completeness 0; exhibited.)", "quantifier": "every number of hosts and failure history", "why_tests_cant": "all histories", "anchors": ["src/common/clients/storage/StorageClientBase.h: StorageRpcResponse"]}
{"id": "C51", "title": "Leader cache follows the last information", "statement": "The leader returned for a part is the last one reported since the last invalidation; without one, one of the part's hosts is chosen, and repeated invalidation cycles through all hosts; after loading, the leader of a part is the last listed host that claims it. (The code violates the first clause when a report arrives between the two critical sections of a get; exhibited.)", "quantifier": "every interleaving of update, invalidate, load and get", "why_tests_cant": "all histories", "anchors": ["src/common/clients/meta/MetaClient.cpp: getStorageLeaderFromCache, updateStorageLeader, invalidStorageLeader"]}
{"id": "C52", "title": "Partition change notifications are exact", "statement": "After a refresh, the listener is told exactly the parts on this host that were added, removed or whose peers changed; applying the notifications to the old part map gives the new one.", "quantifier": "every pair of old and new caches", "why_tests_cant": "all pairs of caches", "anchors": ["src/common/clients/meta/MetaClient.cpp: diff, doGetPartsMap"]}
{"id": "C53", "title": "Listener change notifications are exact", "statement": "Applying the listener notifications to the old listener set gives the new one. (Violated when only the peers of a listener change: it is added and then removed; exhibited.)", "quantifier": "every pair of old and new caches", "why_tests_cant": "all pairs of caches", "anchors": ["src/common/clients/meta/MetaClient.cpp: listenerDiff, doGetListenersMap"]}
{"id": "C54", "title": "A meta request is retried a bounded number of times and answered exactly once", "statement": "For every sequence of RPC outcomes the promise is fulfilled exactly once, after at most limit+1 attempts, with success iff some attempt within the limit succeeded before a final error. After a failed attempt the next one goes to another chosen host; after a redirection to the leader named by the server.", "quantifier": "every sequence of RPC outcomes and retry limit", "why_tests_cant": "all outcome sequences", "anchors": ["src/common/clients/meta/MetaClient.cpp: getResponse"]}
{"id": "C55", "title": "Host-part maps invert each other", "statement": "The part list of a host contains exactly the parts whose peer list contains the host, each with the right multiplicity.", "quantifier": "every part allocation", "why_tests_cant": "unbounded allocations", "anchors": ["src/common/clients/meta/MetaClient.cpp: reverse, doGetPartsMap, checkPartExistInCache"]}
{"id": "C56", "title": "Schema layout gives disjoint fields", "statement": "The fields of a schema occupy consecutive, disjoint byte ranges inside the record, each of the size of its type; the null-flag positions of the nullable fields are 0,1,2,... ; looking up by name or index is consistent.", "quantifier": "every sequence of field definitions", "why_tests_cant": "unbounded sequences", "anchors": ["src/common/meta/NebulaSchemaProvider.cpp: addField, fieldSize, size, getFieldIndex"]}
{"id": "C57", "title": "Schema cache keeps the newest version", "statement": "After loading, every version of a tag or edge that the server listed can be found with its fields, nothing else can, and the newest version recorded for each tag is the maximum of the versions listed, provided versions are listed newest first and the versions of a tag are listed together (otherwise undefined behaviour or a lost schema; exhibited).", "quantifier": "every listing of schema versions", "why_tests_cant": "unbounded listings", "anchors": ["src/common/clients/meta/MetaClient.cpp: loadSchemas"]}
{"id": "C58", "title": "Host list text form round-trips", "statement": "Parsing the printed form of a host list gives the list back for host names without separators or surrounding blanks; a list that was itself read from a text, however that text was spaced, is always such a list; parsing rejects exactly the lists with an entry that is not a host and a numeric port. (Host names with a colon, such as IPv6 addresses, are printed but not parsed back; exhibited.)", "quantifier": "every host list", "why_tests_cant": "unbounded lists and strings", "anchors": ["src/common/network/NetworkUtils.cpp: toHosts, toHostsStr"]}
{"id": "C59", "title": "IPv4 text conversion is exact and injective", "statement": "Every 32-bit address is printed as its four bytes, most significant first, in decimal without leading zeros and separated by dots; the text fits its buffer; distinct addresses are printed differently.", "quantifier": "all 2^32 addresses", "why_tests_cant": "domain size; digit-count boundaries", "anchors": ["src/common/network/NetworkUtils.cpp: intToIPv4"]}
{"id": "C60", "title": "Full-text payloads are quoted safely for the shell", "statement": "The commands that store, search and administer documents run curl with exactly the intended arguments, whatever bytes the value and the column contain: the shell reads the data argument back as exactly the JSON text and interprets no part of it, and that text, parsed as JSON, is the intended document or query; a bulk has exactly two lines for each document. (Index names and credentials are not quoted, and the line of a bulk that names the index is not escaped; exhibited.)", "quantifier": "every JSON text", "why_tests_cant": "injection needs all strings", "anchors": ["src/common/plugin/fulltext/FTUtils.h: normalizedJson, HttpClient::toString, docId", "src/common/plugin/fulltext/elasticsearch/ESStorageAdapter.cpp: putCmd, bulkCmd", "src/common/plugin/fulltext/elasticsearch/ESGraphAdapter.cpp: header, body, createIndexCmd, dropIndexCmd, indexExistsCmd"]}
{"id": "C61", "title": "HTTP requests go to the first matching route", "statement": "A request is answered by the handler of the first added route that matches its method and path, and by the not-found handler if there is none; adding further routes never changes an answer that an earlier route gives. A route without parameters matches exactly its path, up to one trailing slash; a route with parameters matches every path that fills them with non-empty segments, and the handler gets exactly these values under their names; a route that names a parameter twice is refused. (Routes with parameters are not anchored: they also take paths that merely contain an instance; a request with an unknown method throws; exhibited.)", "quantifier": "every route list and request", "why_tests_cant": "unbounded lists", "anchors": ["src/common/webservice/Router.cpp"]}
{"id": "C62", "title": "Statistics are recorded under the right counter", "statement": "Registering returns the same id for the same name and different ids for different names; reading a metric name.method.seconds or name.pXX.seconds reads that method or percentile over exactly the values added under the id of that name, in order; everything reported for a counter can be read back under the reported name; adding under an id that was returned never fails. (Counters with a dot in the name are reported but cannot be read; a name registered both as histogram and as statistic keeps its first id; exhibited.)", "quantifier": "every history of registrations", "why_tests_cant": "all histories", "anchors": ["src/common/stats/StatsManager.cpp: registerStats, registerHisto, addValue"]}
{"id": "C63", "title": "Dividing and joining paths", "statement": "joinPath(dir, name) names the file name in the directory dir (the current directory if dir is empty). Joining the two parts of a divided path gives a path to the same file, the child contains no slash and the parent is shorter than the path; dirname and basename are these two parts. (The root, paths that end in two slashes and paths with line ends are exceptions; exhibited.)", "quantifier": "every path", "why_tests_cant": "unbounded strings", "anchors": ["src/common/fs/FileUtils.cpp: joinPath, dividePath, dirname, basename"]}
{"id": "C64", "title": "Persisting the cluster id is crash safe", "statement": "After a successful persistInFile the id is read back. After a crash at any point, and after a failed call, reading gives the old id, the new id, or none (0), never another id. (The old id can be lost; exhibited.)", "quantifier": "every crash point, every pattern of failing system calls, every previous content", "why_tests_cant": "all crash points", "anchors": ["src/common/clients/meta/FileBasedClusterIdMan.cpp: persistInFile, getClusterIdFromFile"]}
{"id": "C65", "title": "Configuration cache follows the meta server", "statement": "After loading, every flag reported by the server is in the local cache with the server's value, flags not reported keep their previous entries, and only mutable flags whose value changed are set; a value written as text is read back as the same value. (A change of mode alone, a local change, and nested option maps are exceptions; exhibited.)", "quantifier": "every history of config lists", "why_tests_cant": "all histories", "anchors": ["src/common/clients/meta/MetaClient.cpp: loadCfg, updateGflagsValue, updateNestedGflags, toThriftMeta"]}
{"id": "C66", "title": "Appending a path joins paths end to start", "statement": "Appending a path to another succeeds exactly if the second starts at the last vertex of the first; the result visits the vertices of the first and then the remaining ones of the second; a refused append changes nothing. (The code violates this: it also accepts a path that starts at the first vertex, and reads past the end for a path without steps.)", "quantifier": "all pairs of paths of any length", "why_tests_cant": "unbounded lengths; needs a counterexample or a universal proof", "anchors": ["src/common/datatypes/Path.cpp: Path::append"]}
{"id": "C67", "title": "Values survive serialisation", "statement": "Serialising any value with the compact protocol and deserialising the bytes, whatever follows them in the buffer, gives the same value back and consumes exactly the bytes written; no serialisation is a prefix of another one. (The code violates this for edges and path steps: only the sign of the edge type is written, so an edge of type 7 arrives as type 1, and a set of edges may arrive with fewer elements.)", "quantifier": "every value of every type and nesting whose numbers are in the range of their C++ types and whose sizes are below 2^31, every continuation of the buffer", "why_tests_cant": "the values are arbitrarily nested; a test serialises a few of them", "anchors": ["src/common/datatypes/ValueOps.inl:Cpp2Ops<Value>::write/read", "src/common/datatypes/EdgeOps.inl", "src/common/datatypes/PathOps.inl", "src/common/datatypes/VertexOps.inl", "src/common/datatypes/ListOps.inl", "src/common/datatypes/MapOps.inl", "src/common/datatypes/SetOps.inl", "src/common/datatypes/DataSetOps.inl", "src/common/datatypes/DateOps.inl"]}
{"id": "C68", "title": "Fields added by a newer peer are skipped", "statement": "A reader of a serialised date, vertex, edge, path, list, map, set or data set ignores any additional fields with unknown numbers, of any protocol type, appended to the structure, and reads the structure as if they were absent. (The code violates this for Time and DateTime: a 32-bit field with the next number makes the reader stop inside that field and leave its bytes to whatever is read next.)", "quantifier": "every structure, every list of additional fields holding any nested protocol data", "why_tests_cant": "additional fields are arbitrary nested data", "anchors": ["src/common/datatypes/DateOps.inl:Cpp2Ops<Date/Time/DateTime>::read", "src/common/datatypes/VertexOps.inl", "src/common/datatypes/EdgeOps.inl", "src/common/datatypes/PathOps.inl"]}
{"id": "C69", "title": "Key-value pairs and host addresses survive serialisation", "statement": "Serialising a key-value pair or a host address and deserialising the bytes gives the same object, whatever the object held before the read and whatever follows in the buffer.", "quantifier": "every pair of byte strings shorter than 2^31, every host name and 32-bit port", "why_tests_cant": "the strings are arbitrary bytes of arbitrary length", "anchors": ["src/common/datatypes/KeyValueOps.inl", "src/common/datatypes/HostAddrOps.inl"]}
{"id": "C70", "title": "Truncated serialised values are rejected", "statement": "Deserialising a value reads only the bytes of its serialisation: the result does not depend on what follows and the rest is left untouched; a serialisation whose end is missing is rejected, at whatever byte it was cut off.", "quantifier": "every value and every cut position; every byte string", "why_tests_cant": "unbounded nesting and all byte strings", "anchors": ["src/common/datatypes/ValueOps.inl: Cpp2Ops<Value>::read", "src/common/datatypes/*Ops.inl"]}
{"id": "C71", "title": "Evaluation has no side effect beyond its own loop variables", "statement": "Evaluating an expression changes no variable of the context other than the inner variables and accumulators of list comprehensions, predicates and reduce and the operands of ++ and --, changes no aggregate unless it contains an aggregate expression, and its value depends only on the variables it reads. (The last part is violated for attribute expressions on edges as C45, exhibited.)", "quantifier": "every expression, context and history", "why_tests_cant": "all expression shapes and nestings", "anchors": ["src/common/expression/*Expression.cpp eval", "src/common/context/ExpressionContext.h setVar"]}
{"id": "C72", "title": "Failures of storage requests correct the leader cache", "statement": "By the time the caller gets the response, the leader cache has been told the new leader of every part that reported a leader change with a usable address, and to forget the leader of every part whose request failed, that was not found, or that reported a leader change without an address; and nothing else. (The code violates this for single-host requests that fail: the caller is told first; exhibited.)", "quantifier": "every set of hosts, every reply and every interleaving", "why_tests_cant": "all schedules and replies", "anchors": ["src/common/clients/storage/StorageClientBase.inl: collectResponse, getResponseImpl", "src/common/clients/storage/StorageClientBase.h: isValidHostPtr"]}
{"id": "C73", "title": "Graph requests are routed by vertex id and leave their arguments alone", "statement": "Every vertex, edge (by its source) or row of a request goes to the leader of the part of its id: in integer spaces the id modulo the number of parts, else the hash of the string; the ids are sent as strings; the arguments of the caller are not changed, so that the request can be repeated. (The code violates the last clause in integer spaces: the rows are rewritten in place and a second call with them aborts; exhibited.)", "quantifier": "every list of items and every leader map", "why_tests_cant": "unbounded lists, all ids", "anchors": ["src/common/clients/storage/GraphStorageClient.cpp: getIdFromRow, getIdFromNewVertex, getIdFromNewEdge, getIdFromEdgeKey, getIdFromValue, getIdFromDelTags, getNeighbors, getProps, addVertices, addEdges, deleteEdges, deleteVertices, deleteTags"]}
{"id": "C74", "title": "Internal requests follow the leader", "statement": "A forwarded transaction or value read goes to the internal address of the cached leader, is repeated while the leader has moved, and ends with the code of the first attempt that is not a leader change; a failed call is reported as a failed call and an unknown space as an unknown space. (The code violates the last two clauses and repeats without end while the leader moves; exhibited.)", "quantifier": "every sequence of cached leaders and replies", "why_tests_cant": "unbounded sequences of attempts", "anchors": ["src/common/clients/storage/InternalStorageClient.cpp: extractErrorCode, forwardTransactionImpl, getValueImpl"]}
{"id": "C75", "title": "Document ids identify part, column and value", "statement": "Two documents have the same id exactly if they have the same part, columns with the same digest and values that agree in the first 256 bytes; ids are at most 386 bytes long and have no slash.", "quantifier": "every pair of documents", "why_tests_cant": "injectivity over unbounded strings", "anchors": ["src/common/plugin/fulltext/FTUtils.h: DocIDTraits::id, column, val, docId", "src/common/encryption/Base64.cpp: encode"]}
{"id": "C76", "title": "Answers of the search engine are read correctly", "statement": "A search succeeds exactly if the answer has the form of a result, and then appends exactly the values of its hits, in their order; storing, bulk and index operations succeed exactly if the answer says so. (A search that fails may have added rows; exhibited.)", "quantifier": "every JSON answer", "why_tests_cant": "every shape of answer", "anchors": ["src/common/plugin/fulltext/elasticsearch/ESGraphAdapter.cpp: result, statusCheck, indexCheck", "src/common/plugin/fulltext/elasticsearch/ESStorageAdapter.cpp: checkPut, checkBulk"]}
{"id": "C77", "title": "makeDir makes exactly the missing directories", "statement": "If nothing but directories is on the way, makeDir succeeds, makes exactly the directories missing on the way to the path and changes nothing else; it also succeeds if other processes make directories at the same time, whatever the schedule. If a regular file is on the way it fails and changes nothing. (On a symbolic link it reports success wherever the link leads; exhibited.)", "quantifier": "every file system, path and schedule of other makers", "why_tests_cant": "all schedules of concurrent makers, unbounded depth", "anchors": ["src/common/fs/FileUtils.cpp: makeDir, fileType, dividePath"]}
{"id": "C78", "title": "remove removes all or reports failure", "statement": "remove returns true exactly if afterwards nothing is there; recursively it succeeds exactly if everything below can be removed, and without recursion exactly if the directory holds only removable files. After a failure the file is still there, some files below may be missing, and nothing else has changed. (The documentation promises failure for every non-empty directory without recursion, which is not so; exhibited.)", "quantifier": "every file tree, every order of entries", "why_tests_cant": "unbounded trees", "anchors": ["src/common/fs/FileUtils.cpp: remove, removeDir"]}
{"id": "C79", "title": "Iterating over a file or directory", "statement": "Iterating gives exactly the lines of the file (or the names in the directory that do not start with a dot) that match the pattern, in order, each once, and then becomes invalid; a step on an invalid iterator aborts.", "quantifier": "every file content, directory and pattern", "why_tests_cant": "unbounded contents", "anchors": ["src/common/fs/FileUtils.cpp: Iterator::next, dirNext, fileNext"]}
{"id": "C80", "title": "A refresh of the cache is all or nothing", "statement": "If a refresh of the cache fails, every reader sees the cache of before; if it succeeds, every reader sees exactly what the server answered for every space. (The index names are an exception: they are changed by a failed refresh; and a failed request for the hosts is not noticed; both exhibited.)", "quantifier": "every pattern of failing requests, every set of spaces", "why_tests_cant": "every request may fail, unbounded numbers of spaces", "anchors": ["src/common/clients/meta/MetaClient.cpp: loadData, loadSchemas, loadIndexes, loadListeners, listHosts"]}
{"id": "C81", "title": "The cache is up to date once the last change has been seen", "statement": "Whatever the interleaving of changes at the server with the heartbeats and the single requests of refreshes, whenever the time recorded with the cache is the time of the server's last change, the cache is what the server has; and a round without failures and changes ends so. (Two changes of the same time are an exception; exhibited.)", "quantifier": "every interleaving of server changes, heartbeats, requests and failures", "why_tests_cant": "all interleavings", "anchors": ["src/common/clients/meta/MetaClient.cpp: heartBeatThreadFunc, isMetadReady, heartbeat"]}
{"id": "C82", "title": "Built-in functions are found by name and arity, and only called with their arguments present", "statement": "A function is found exactly if its name is the given one, ignoring case, and the number of arguments is within the function's limits; a function found and called never reads an argument that is not there; the declared signatures have only accepted numbers of arguments.", "quantifier": "every name, every list of argument values, every function", "why_tests_cant": "unbounded names and argument lists", "anchors": ["src/common/function/FunctionManager.cpp: get, getInternal, find, constructor", "src/common/function/FunctionManager.h: FunctionAttributes"]}
{"id": "C83", "title": "A function returns a value of its declared type, or NULL", "statement": "For argument types that match a declared signature the value returned has the declared type or is NULL, and a NULL first argument gives NULL. (strcasecmp is an exception: declared as a text, returns an integer; exhibited.)", "quantifier": "every function, every tuple of argument values", "why_tests_cant": "all values of all argument types", "anchors": ["src/common/function/FunctionManager.cpp: typeSignature_, getReturnType, constructor"]}
{"id": "C84", "title": "Functions marked pure depend on their arguments only, and random numbers are in range", "statement": "A function marked pure returns the same value for the same arguments whatever the clock and the random generator give; random numbers with bounds lie within the bounds. (rand is marked pure; rand32 of a bound above 2^31 can be negative; both exhibited.)", "quantifier": "every argument list, every two states of the clock and the random generator", "why_tests_cant": "ranges over all states of the environment", "anchors": ["src/common/function/FunctionManager.cpp: getIsPure, rand, rand32, rand64"]}
{"id": "C85", "title": "Built-in functions always return", "statement": "A call of a built-in function with accepted arguments returns a value: it neither has undefined behaviour nor runs forever; range gives exactly the arithmetic progression. (Exceptions, exhibited: abs of the smallest integer, head and last of an empty list, padding with an empty text, range near the limits of integers, a cell of a short row.)", "quantifier": "every function, every argument list", "why_tests_cant": "all argument values, termination", "anchors": ["src/common/function/FunctionManager.cpp: abs, head, last, lpad, rpad, range, datasetrowcol"]}
{"id": "C86", "title": "The text functions compute the described texts", "statement": "split cuts at the occurrences of the separator, leftmost first, and joining the pieces gives the text back; replace puts the new text in place of every separator; left, right, substr and the pads give exactly the described parts; trimming removes exactly the white space at the ends; case conversion changes letters only; reverse is its own inverse; strcasecmp is 0 exactly for texts equal up to case; texts of integers and truth values convert back. (Lengths of 2^31 and more are cut to 32 bits in substr; exhibited.)", "quantifier": "every text (any bytes) and every length", "why_tests_cant": "unbounded texts", "anchors": ["src/common/function/FunctionManager.cpp: split, replace, left, right, substr, lpad, rpad, trim, ltrim, rtrim, lower, upper, reverse, strcasecmp, tostring, tointeger, toboolean"]}
{"id": "C87", "title": "The functions of lists, maps, vertices, edges and paths agree with each other", "statement": "A nonempty list is its head followed by its tail; coalesce gives the first element that is not NULL; keys are the property names, sorted, each once, and agree with properties, where the first tag wins; an edge seen from either end has the same source and destination; nodes, relationships, length, startnode and endnode of a path are its vertices and edges in order, and reversing the path reverses them. (startnode of an edge seen from its destination is the destination; exhibited.)", "quantifier": "every list, map, vertex, edge and path", "why_tests_cant": "unbounded structures", "anchors": ["src/common/function/FunctionManager.cpp: head, tail, last, coalesce, keys, properties, tags, src, dst, startnode, endnode, nodes, relationships, length, reversepath, hassameedgeinpath, hassamevertexinpath"]}
{"id": "C88", "title": "The functions of numbers compute what their names say", "statement": "floor, ceil and round give the integers of their definitions (halves away from zero); an integer is its sign times its absolute value; the bit functions work bit by bit; roots of negative numbers and logarithms of zero are NULL; cos_similarity is the quotient of the scalar product and the lengths; timestamp accepts exactly the range it promises. (Rounding an INT above 2^53 changes it; logarithms of numbers near zero are NULL; exhibited.)", "quantifier": "every number, every vector", "why_tests_cant": "all numbers, unbounded vectors", "anchors": ["src/common/function/FunctionManager.cpp: floor, ceil, round, abs, sign, bit_and, bit_or, bit_xor, sqrt, log, log2, log10, pow, hypot, cos_similarity, timestamp"]}
{"id": "C89", "title": "Attributes give the named component or property", "statement": "The attribute of a date, time or datetime is the component of that name in any case of letters; of a map, vertex or edge the property of that name (the first tag that has it wins), for _vid, _src, _dst, _rank and _type the id, end, rank or type; the subscript by name agrees; an absent name is the unknown-property NULL and anything else the bad-type NULL; exists(a.k) is true exactly if the property is there and not NULL. (exists of a built-in name is false although the attribute has a value; exhibited.)", "quantifier": "every value, name, expression and context", "why_tests_cant": "values and names are unbounded", "anchors": ["src/common/expression/AttributeExpression.cpp: eval", "src/common/expression/SubscriptExpression.cpp: extractMapValue, extractVertexValue, extractEdgeValue", "src/common/expression/PredicateExpression.cpp: evalExists"]}
{"id": "C90", "title": "A path expression builds the path its items describe", "statement": "From a vertex and edges that are joined, each possibly followed by its end vertex, the path is built whose vertices are the first vertex and the ends of the edges and whose hops are the edges; an edge or vertex that does not join gives the bad-data NULL. (Violated: the source of the first edge is not compared with the first vertex, and a plain id replaces the end of an edge without a test; exhibited.)", "quantifier": "every list of items of any length", "why_tests_cant": "unbounded lists of items", "anchors": ["src/common/expression/PathBuildExpression.cpp: eval, buildPath, getVertex, getEdge"]}
{"id": "C91", "title": "List, set and map expressions, increments and tests", "statement": "A list expression gives the values of its operands in order; a set expression each value once; a map expression gives each key the value of its first occurrence; ++x and --x return the new value, store it in x and change no other variable, and are the bad-type NULL on anything but a variable; IS NULL, IS EMPTY and their negations are the tests they name. (The code violates: on a variable with a version, which they accept, ++ and -- are undefined, because it is taken for an object of another class.)", "quantifier": "every list of operands, every context", "why_tests_cant": "unbounded operand lists and contexts", "anchors": ["src/common/expression/ContainerExpression.cpp: eval", "src/common/expression/UnaryExpression.cpp: eval"]}
{"id": "C92", "title": "Answers of the graph service survive the wire", "statement": "Every answer to a login or a query that the graph service can produce - error code, latency, session, time zone, table, space name, message, comment, and the execution plan with its nodes, profiles, branches, descriptions and dependencies, each optional part present or absent - is received as it was sent (the values of the table as in C67), and exactly its own bytes are consumed. Fields a newer peer appends are ignored, an answer lacking a required field is rejected, and so is one cut off at any byte.", "quantifier": "all answers whose parts are in the range of their types, all subsets of optional parts present, all trailing bytes, all additional unknown fields, all required fields left out, all cut positions", "why_tests_cant": "Plans nest lists, maps and structures of unbounded size, and each optional part may be missing independently; tests fix a handful of answers.", "anchors": ["src/common/graph/AuthResponseOps.inl", "src/common/graph/ExecutionResponseOps.inl", "src/common/graph/PlanDescriptionOps.inl", "src/common/graph/PlanNodeDescriptionOps.inl", "src/common/graph/ProfilingStatsOps.inl", "src/common/graph/PlanNodeBranchInfoOps.inl", "src/common/graph/PairOps.inl"]}
{"id": "C93", "title": "Comparing and reusing answers", "statement": "Two answers (plans, plan nodes, profiles) compare equal exactly if they agree in every component, hash maps being compared by their entries in any order; and reading into an object after clear() gives what reading into a new one gives. (The code compares the name of the time zone with itself, leaves out a node's output variable and a plan's optimiser time, and clear() keeps the time zone of a login answer; exhibited.)", "quantifier": "all pairs of answers, all former contents of a reused object, all answers read into it", "why_tests_cant": "A comparison that skips a component is only noticed by a pair that differs in exactly that component; staleness depends on every combination of former and new contents.", "anchors": ["src/common/graph/Response.h", "src/common/graph/Response.cpp"]}
{"id": "C94", "title": "Comparing expressions", "statement": "Comparing two expressions returns for every pair, true exactly if the trees agree node by node (kind, names, numbers, which operands are present, equal constants); it is reflexive, symmetric and transitive, and expressions that compare equal evaluate to the same value with the same effects in every context. (The code compares text searches by address, follows a null pointer for a versioned variable without version or an aggregate without argument, ignores DISTINCT, and takes the constants 7 and 7.0 for equal although 7/2 and 7.0/2 differ; exhibited.)", "quantifier": "all pairs and triples of expression trees of any depth and width, all contexts", "why_tests_cant": "There are two dozen classes with their own comparison and trees nest without bound; a comparison that skips a member is only noticed by a pair differing in just that member.", "anchors": ["src/common/expression/Expression.h", "src/common/expression/CaseExpression.cpp", "src/common/expression/TextSearchExpression.cpp", "src/common/expression/AggregateExpression.cpp", "src/common/base/CheckPointer.h"]}
{"id": "C95", "title": "Copying expressions", "statement": "Copying an expression gives an expression that equals it, evaluates to the same value in every context and has the same encoding; copying always returns. (The copy of a text search loses operator, fuzziness, limit and timeout; copying a versioned variable without version or an aggregate without argument follows a null pointer; exhibited.)", "quantifier": "all expression trees of any depth and width, all contexts", "why_tests_cant": "Every class copies its members by hand; a member forgotten in one class shows only in trees that use it, at any depth.", "anchors": ["src/common/expression/Expression.h", "src/common/expression/CaseExpression.h", "src/common/expression/PropertyExpression.h", "src/common/expression/TextSearchExpression.h", "src/common/expression/PredicateExpression.cpp"]}
{"id": "C96", "title": "Fetching items of a configuration", "statement": "Fetching an item as an integer, number, boolean, text or nested configuration succeeds exactly if the item is there with that type and gives its value, otherwise the caller's variable is unchanged; arrays give all their entries in order; a text item put in is fetched back and no other item changes. (A failed array fetch leaves the first entries in the caller's vector, and JSON that is no object is accepted as a configuration whose fetches throw; exhibited.)", "quantifier": "all configurations, all keys, all previous contents of the caller's variables", "why_tests_cant": "Configurations, keys and value types combine freely; a conversion that is too lenient shows only for one combination.", "anchors": ["src/common/conf/Configuration.cpp", "src/common/conf/Configuration.h", "fetchAsInt", "fetchAsString", "fetchAsSubConf", "upsertStringField"]}
{"id": "C97", "title": "Written configurations are read back", "statement": "The text of a configuration, plain or indented, is parsed as the same configuration, up to the order of items in objects. The plain text is a single line; the indented one has a line for every item and closing bracket. A text that goes on after it is refused and changes nothing; of an item given several times the last one counts; escaped characters are read as their UTF-8 encoding. Writing fails only because of an infinite double or one that is not a number. A configuration read from any text can, its doubles aside, be written and read back. (A number such as 1.0 is written as 1 and comes back as an integer; exhibited.)", "quantifier": "all configurations nested up to the parser's limit, all texts with any bytes, all orders in which objects are written", "why_tests_cant": "Strings need escaping, objects and arrays nest, and numbers have several notations; only an argument over all values covers their combinations.", "anchors": ["src/common/conf/Configuration.cpp", "src/common/conf/Configuration.h", "dumpToString", "dumpToPrettyString", "parseFromString"]}
{"id": "C98", "title": "Comments in configuration files", "statement": "A configuration file is read as the JSON text that remains when each line is cut at its first # or //; a missing, empty or malformed file leaves the configuration as it was. (Marks inside strings are cut as well and a NUL ends the text; exhibited.)", "quantifier": "all files of any number of lines, all previous configurations", "why_tests_cant": "Comments may start anywhere on any line of any file.", "anchors": ["src/common/conf/Configuration.cpp", "src/common/conf/Configuration.h", "parseFromFile"]}
{"id": "C99", "title": "Flags registered with the meta service", "statement": "The flags a process registers are exactly those its mode file lists as mutable or nested (or the built-in list without a file), in order, each with its module, its name and the value its current text stands for; processes of unknown kind register nothing. (Entries of a nested flag that are no scalars are dropped silently, and unsigned values above the signed range or a nested flag that is no object throw; exhibited.)", "quantifier": "all mode files, all lists of flags with any types and texts", "why_tests_cant": "The list of flags and the mode file are both free; a flag that is skipped or misread shows only for that type and text.", "anchors": ["src/common/meta/GflagsManager.cpp", "declareGflags", "parseConfigJson", "gflagsValueToValue"]}
{"id": "C100", "title": "Setting flags over HTTP", "statement": "PUT /flags with a JSON object of scalars sets each named flag to the text given for it unless there is no such flag or it refuses the text, changes no other flag, and its answer, parsed as JSON, names exactly those that failed; a body that is malformed or empty is answered 400 and changes nothing. (A missing body, a JSON array or text, or a value that is null or nested ends the process; exhibited.)", "quantifier": "all request bodies, all sets of flags, all orders in which the items are visited, all rules by which flags accept texts", "why_tests_cant": "Requests may name any number of flags in any mix of good and bad items.", "anchors": ["src/common/webservice/SetFlagsHandler.cpp", "onEOM"]}
{"id": "C101", "title": "Reading flags over HTTP", "statement": "GET /flags answers with one entry for every name asked for, in the order of the request, or for all flags without names; an entry has the flag's present value, or nullptr/null for unknown names, and with verbose its default, type, description, file and whether it is the default. The JSON form, parsed, has the same content. What a PUT has set is what is shown. (A verbose plain request for an unknown flag ends the process; unsigned values above the signed range are shown negative; exhibited.)", "quantifier": "all lists of names, all sets of flags with any types and texts, both formats, all orders in which objects are written", "why_tests_cant": "Names, types, texts to be escaped and both formats combine freely.", "anchors": ["src/common/webservice/GetFlagsHandler.cpp", "addOneFlag", "getFlags", "toStr"]}
{"id": "C102", "title": "Reading counters and the status over HTTP", "statement": "GET /stats answers with one entry for every counter asked for, in the order of the request, or for all counters without names: its value or why it has none; the JSON form, parsed, has the same content. GET /status, parsed, tells that the process runs and its source revision. Every other method is answered 405.", "quantifier": "all lists of counter names, all values and error texts, both formats", "why_tests_cant": "Any names may be asked for, and error texts repeat them, so that anything may need escaping in the answer.", "anchors": ["src/common/webservice/GetStatsHandler.cpp", "src/common/webservice/StatusHandler.cpp", "getStats", "toStr", "getStatus"]}
{"id": "C103", "title": "Logins and roles follow the server", "statement": "At every moment, also while a refresh runs, a login is accepted exactly if the client is ready and the account is listed with that password in the last complete answer of the server about the users; the roles given for a user come from that same answer; before the first complete refresh nobody can log in.", "quantifier": "all histories of heartbeats and refreshes with any answers and failures, all moments seen by other threads, all accounts and passwords", "why_tests_cant": "Refreshes fail at any request, users come and go between them, and readers look at any moment.", "anchors": ["src/common/clients/meta/MetaClient.cpp", "src/common/clients/meta/MetaClient.h", "loadUsersAndRoles", "authCheckFromCache", "checkShadowAccountFromCache", "getRolesByUserFromCache"]}
{"id": "C104", "title": "Waiting for the meta service", "statement": "Waiting with a count makes attempts until one leaves the client ready, at most one more than the count, and tells whether it is ready; with -1 it goes on until ready; a stop ends the wait after the attempt that is being made; an attempt succeeds exactly if the heartbeat was answered and the refresh completed. (A stop during the wait can make the waiter use the destroyed worker; exhibited.)", "quantifier": "all counts, all sequences of attempts with any answers, all moments of a stop, all interleavings of the two threads", "why_tests_cant": "The number of failures before success is unbounded and the stop may fall between any two steps.", "anchors": ["src/common/clients/meta/MetaClient.cpp", "src/common/clients/meta/MetaClient.h", "waitForMetadReady", "isMetadReady", "stop"]}
{"id": "C105", "title": "A storage server stays in its cluster", "statement": "If the meta service always names one cluster, a storage server never sends another id, through any sequence of heartbeats, failures, restarts, losses of power and crashes while the id is written; once its file names a cluster no answer of any server changes the file or the id it sends. (A file that cannot be read once after a restart is taken for a missing one and overwritten; exhibited.)", "quantifier": "all histories of heartbeats, failures, restarts and crash points, all cluster ids", "why_tests_cant": "Crash points, restarts and answers combine into unboundedly many histories.", "anchors": ["src/common/clients/meta/MetaClient.cpp", "src/common/clients/meta/MetaClient.h", "heartbeat", "src/common/clients/meta/FileBasedClusterIdMan.h", "persistInFile", "getClusterIdFromFile"]}
{"id": "C106", "title": "Full-text indexes are found as listed", "statement": "The full-text indexes of a space, of a schema, and by name, and the list of full-text servers, are those the meta service listed last, whatever order the table is visited in; nothing is answered before the first complete refresh. (Looking up a name that no index has succeeds with an empty index and puts it into the table, after which the search by schema can read an empty union; exhibited.)", "quantifier": "all lists of indexes and servers, all spaces, schemas and names, all sequences of refreshes and lookups, all orders of the table", "why_tests_cant": "The order of a hash table and the sequence of lookups and refreshes are unbounded.", "anchors": ["src/common/clients/meta/MetaClient.cpp", "getFTIndexBySpaceFromCache", "getFTIndexBySpaceSchemaFromCache", "getFTIndexByNameFromCache", "getFTClientsFromCache"]}
{"id": "C107", "title": "Schema and index managers answer from the last complete refresh", "statement": "When the client holds the answers of a complete refresh, the managers give: for a tag or edge the schema of the version asked for, or the newest for a negative version, null if there is none; names and ids of tags and edges as listed in both directions; the newest schema of every tag and edge of a space and no other; name, id length, id type, isolation level and part terms of a space; indexes by id and the complete list of indexes. A failed refresh changes no answer, and a refresh between the two steps of a lookup does not lose the newest version.", "quantifier": "all answers of a server that lists ids and names once, all previous histories of the client, all spaces, tags, edges, versions, names and indexes, all states before and after a refresh", "why_tests_cant": "Schemas have any number of versions in any order, and lookups overlap refreshes.", "anchors": ["src/common/meta/ServerBasedSchemaManager.cpp", "src/common/meta/ServerBasedIndexManager.cpp", "src/common/clients/meta/MetaClient.cpp"]}
{"id": "C108", "title": "Pid files and the output of commands", "statement": "A pid file is free exactly if it is missing, holds no number, or its first number is the pid of the asking process or of no process; what is written is read back; a process that starts while the one named in the file lives is refused, and let in when it is gone. Running a command gives all it writes, whatever the sizes of the reads, or an error if reading fails. (Two processes that start at once can both run; a pid file with 0 or -1 is refused for ever and one with a number over 32 bits throws; a command that fails counts as success; exhibited.)", "quantifier": "all pids, all contents of pid files, all sets of processes, all outputs cut into pieces in any way", "why_tests_cant": "Texts, sizes of reads and interleavings are unbounded.", "anchors": ["src/common/process/ProcessUtils.cpp", "isPidAvailable", "makePidFile", "runCommand"]}
{"id": "C109", "title": "curl and hdfs get the arguments meant", "statement": "A request gives curl exactly the words of the options, the method and the address as arguments, if the address has no character with a meaning between double quotes; data is one argument that reads back as the same JSON value, if no string in it has a single quote; hdfs commands name exactly the given file if host and paths have no special characters; the answer is the whole output. (A single quote in the data runs as shell text, a space in a path makes two arguments, a failed request is an empty answer; exhibited.)", "quantifier": "all addresses, options, methods, JSON values, hosts, ports and paths", "why_tests_cant": "Any byte may occur in addresses, data and paths.", "anchors": ["src/common/http/HttpClient.cpp", "src/common/hdfs/HdfsCommandHelper.cpp"]}
{"id": "C110", "title": "Connections are usable and reused", "statement": "After any calls of a thread, asking for a client gives a connection for that event base and address that is usable at that moment, or a new one made with the options asked for; a connection to an IP address is given again to every later call for the same address and event base as long as it is usable. (Connections to host names are never reused, and options of later calls are ignored; exhibited.)", "quantifier": "all sequences of calls with any hosts, event bases and options, connections breaking at any moments, names resolving in any way", "why_tests_cant": "Connections break and names change between any two calls of unbounded histories.", "anchors": ["src/common/thrift/ThriftClientManager.inl", "src/common/thrift/ThriftClientManager.h", "client"]}
{"id": "C111", "title": "Signals reach the handler installed last", "statement": "A signal that has a handler runs the handler installed last for it; a fatal signal then ends the process by that same signal; once anything has been installed SIGPIPE and SIGHUP are ignored unless they have handlers of their own; a signal never installed keeps its default effect; a successful installation of a list of signals leaves every one of them with that handler, and a failing one leaves the earlier ones installed and the later ones as they were. (SIGCHLD handlers run twice per signal; a signal that arrives while its first handler is being put in place ends the process; exhibited.)", "quantifier": "all sequences of installations of any signals and handlers, signals delivered at any point, also in the middle of an installation", "why_tests_cant": "A signal can arrive between any two steps of any history of installations.", "anchors": ["src/common/base/SignalHandler.cpp", "src/common/base/SignalHandler.h", "install", "handleGeneralSignal", "handleFatalSignal"]}
{"id": "C112", "title": "The object pool deletes what it holds, once and in order", "statement": "Objects are deleted in the order they were added and as often as they were added; when clearing returns, everything added before is deleted; while one thread clears no other adds or clears; when the pool ends everything is deleted; `empty` tells whether anything is left. (An object added twice is deleted twice; a destructor that uses the pool blocks it for ever; exhibited.)", "quantifier": "all interleavings of any number of threads that add, clear and ask", "why_tests_cant": "Interleavings and numbers of objects are unbounded.", "anchors": ["src/common/base/ObjectPool.h", "add", "clear"]}
{"id": "C113", "title": "Devices and host names give their IPv4 addresses", "statement": "The address of a device is the text of its IPv4 address (of the last one listed, if it has several), for `any` it is 0.0.0.0, and an unknown device is an error; the list of devices has every device with an IPv4 address once, and the list of addresses has one for each of them; a host name resolves to every IPv4 address the resolver answers, in order, with the port asked for. (An interface without any address makes the program read a null pointer; exhibited.)", "quantifier": "all lists of interfaces with any families and addresses, all names, all answers of the resolver", "why_tests_cant": "Interfaces and answers of the resolver are lists of any length.", "anchors": ["src/common/network/NetworkUtils.cpp", "getIPv4FromDevice", "listDeviceAndIPv4s", "resolveHost"]}
{"id": "C114", "title": "An available port is one that is not in use", "statement": "The ports in use are exactly those of the sockets the kernel lists in its tables; the dynamic range is the one the kernel tells, or 49152 to 65535; an available port, if one is given, is in the range drawn from, not in use and outside the dynamic range. (If the dynamic range begins at 1025 the port can be 0, if it begins lower the draw is undefined; exhibited.)", "quantifier": "all tables of sockets with any lines, all dynamic ranges, all sequences of draws", "why_tests_cant": "Tables and draws are of any length.", "anchors": ["src/common/network/NetworkUtils.cpp", "getPortsInUse", "getDynamicPortRange", "getAvailablePort"]}
{"id": "C115", "title": "Hexadecimal dumps are faithful", "statement": "The dump of a byte string has for every byte in order its two hexadecimal digits and the character if it is printable; the bytes can be read back from it, so that different strings have different dumps.", "quantifier": "all byte strings", "why_tests_cant": "Strings of every length and content.", "anchors": ["src/common/base/Base.cpp", "toHexStr"]}
{"id": "C116", "title": "The fast clock tells the time", "statement": "Ticks of the counter are converted to seconds and milliseconds rounded to the nearest and to microseconds rounded down, up to one part in 2^49; as long as the rate is not measured anew a later reading gives no earlier time; the fast clock is the starting time plus the converted ticks; the system clock is rounded down; an operation counts as slow exactly if it took longer than the limit. (When the rate is measured anew the clock can go back; the rate is cut to a whole number so that the clock drifts; counters below 1 MHz make every conversion undefined; exhibited.)", "quantifier": "all counter readings below 2^64, all rates, all starting times", "why_tests_cant": "Rounding of doubles over all 64 bit readings and all rates.", "anchors": ["src/common/time/detail/TscHelper.cpp", "src/common/time/WallClock.h", "src/common/base/SlowOpTracker.h"]}
{"id": "C117", "title": "Floating point results are correctly rounded", "statement": "A sum, difference, product or quotient with a float operand is the double nearest to the exact result, ties to even, and an infinity beyond the largest; adding the same number or multiplying by the same number that is not negative keeps the order; a remainder is exact, smaller than the divisor and has the sign of the dividend; adding 0, multiplying by 1 and dividing by 1 change nothing; the difference of two doubles is 0 exactly if they are equal. (A divisor of at most 1e-8 in absolute value counts as zero; exhibited.)", "quantifier": "all doubles and all integers up to 2^53 in absolute value", "why_tests_cant": "The rounding must be right for all 2^128 pairs of operands.", "anchors": ["src/common/datatypes/Value.cpp", "operator+", "operator-", "operator*", "operator/", "operator%"]}
{"id": "C118", "title": "Dates and times survive being written and read", "statement": "The text of a day whose year has four digits is read as that day; the text of a time of day, and of a point in time with such a year, is read as the same time without its fraction of a second, also with a blank in place of the T; whatever is read as a date is a day of the calendar; with libstdc++ 13 the texts that are dates are exactly those of blanks, one to four, one or two and one or two digits separated by dashes that name a day, followed by anything; date(toString(d)) is d. (Exceptions, exhibited: a text that ends after the year, the month or the date gives an undefined result, fractions are lost, negative years and years of five digits cannot be read back, second 60 is accepted, microseconds of a point in time are written without padding.)", "quantifier": "all dates, times and points in time, all texts, any library that reads numbers of full width", "why_tests_cant": "All days of all years and all texts of any length.", "anchors": ["src/common/time/TimeUtils.h", "src/common/datatypes/Date.cpp", "parseDate", "parseTime", "parseDateTime", "toString"]}
{"id": "C119", "title": "The text of a value identifies the value", "statement": "Two values with the same text (toString) are the same value, if they are built from empty, null kinds, booleans, integers, texts without quotation marks, existing dates, times and points in time, lists, non-empty sets and non-empty maps whose keys are names; so are two edges, two vertices with any number of tags, two paths of such vertices and two data sets with columns without bars and new lines, made of such values and names. (Exceptions, exhibited: quotation marks inside texts are not escaped, the empty set and the empty map look alike, keys are not quoted, floats that are whole numbers look like integers, the name of a tag can look like several tags.) The text of an id that is no scalar is the one its hash is computed from.", "quantifier": "all pairs of values of any size and nesting", "why_tests_cant": "Values nest without bound; the claim is about all pairs.", "anchors": ["src/common/datatypes/Value.cpp", "src/common/datatypes/List.h", "src/common/datatypes/Map.h", "src/common/datatypes/Set.h", "src/common/datatypes/Vertex.cpp", "toString"]}
{"id": "C120", "title": "The text of an expression identifies the expression", "statement": "Every plain expression has a text (toString), and two plain expressions with the same text are the same expression: operators and their nesting, names, constants, containers, cases, predicates, comprehensions, reductions, calls and aggregates can all be read off. Plain means: names are words and not one of the reserved ones, constants are empty, null kinds, booleans, integers and texts without quotation marks, containers are not empty, nothing stands behind a cast, aggregates have names of their own. Two text searches have the same text exactly if kind, column, value, fuzziness with its operator, and the numbers given behind them agree. (Exceptions, exhibited: casts followed by a test or subscript, properties of tags, edges and labels, inner variables, constant containers, empty containers, aggregates against calls, operators of text searches, limits against time outs; and expressions whose text is undefined.)", "quantifier": "all pairs of expressions of any size and nesting, any set of aggregate names", "why_tests_cant": "Expressions nest without bound; the claim is about all pairs of trees.", "anchors": ["src/common/expression/*.cpp", "Expression::toString"]}
{"id": "C121", "title": "A NULL argument makes the result of a function NULL", "statement": "A call of a built-in function with an allowed number of arguments, one of which is NULL of any kind, gives NULL, whatever the other arguments are. (Exceptions, exhibited: hash gives a number, udf_is_in a truth value, near an empty string, cos_similarity -2 if the number of arguments is odd.)", "quantifier": "all built-in functions, all argument lists of allowed length that contain a NULL, all libraries, clocks and random draws", "why_tests_cant": "Every combination of types in the other arguments has to be covered for every function.", "anchors": ["src/common/function/FunctionManager.cpp", "FunctionManager::get"]}
{"id": "C122", "title": "Constant expressions have one value and may be replaced by it", "statement": "An expression that names no variable but those it binds itself, no property, column, vertex, edge or aggregate, and calls only functions marked pure has the same value (or lack of one) in every context, after every earlier evaluation and at every time; and in any larger expression it may be replaced by that value without changing the value or the effects of the evaluation. (Exceptions, exhibited: rand is marked pure; a comprehension sets its variable in the context, so that replacing it changes what a later reading of that variable gives.)", "quantifier": "all expressions, all choices of constant sub-expressions, all contexts, clocks and random sources, all earlier evaluations", "why_tests_cant": "Expressions nest without bound and every context has to be compared with every other.", "anchors": ["src/common/expression/Expression.h: eval", "src/common/expression/FunctionCallExpression.cpp: eval", "src/common/function/FunctionManager.cpp: getIsPure", "src/common/expression/ListComprehensionExpression.cpp"]}
{"id": "C123", "title": "Key-value calls of the meta client take effect once, however often they are sent", "statement": "multiPut, get, multiGet, scan, remove and removeRange with a segment of letters and digits and nonempty arguments are sent, others are refused without a request. Whatever attempts are lost before or after the server applied them or are redirected: a call that succeeds leaves the store as one application does (the last pair of a key wins, exactly the named keys or range are removed, reads change nothing and give what is stored), and one that fails leaves it as one application or none does, if no other client is active; with others, the call took effect at the attempt that was answered. (Exceptions, exhibited: with other clients active an earlier, lost attempt is visible too; createSpace can make the space and report an error.)", "quantifier": "all calls and arguments, all sequences of fates of the attempts, all retry limits, all contents of the store, all activities of other clients", "why_tests_cant": "Every point at which a connection can break, in every sequence of attempts, has to be covered.", "anchors": ["src/common/clients/meta/MetaClient.cpp: multiPut, get, multiGet, scan, remove, removeRange, getResponse", "src/common/meta/Common.h: checkSegment"]}
{"id": "C124", "title": "Listener lookups answer what the server listed", "statement": "After a load, the listeners of a host in a space are those the server listed for it, in its order; the listeners of a part are those listed for it, each as often; the listener of a part and type is a listed one, and is found exactly if there is one; all listeners of a host are grouped by space and part with the peers of the part. An unknown space, no listener and a client that is not ready are told apart. In every round the store is told about each of its parts exactly once, with the listeners of that part in the cache of one moment, even if the cache is replaced during the round. An index is known exactly if it is listed in a known space.", "quantifier": "all answers of the server, all iteration orders of the hash tables, all lookups, all replacements of the cache during a round", "why_tests_cant": "Tests use a few listeners, one order of the hash table and no concurrent refresh.", "anchors": ["src/common/clients/meta/MetaClient.cpp: loadListeners, getListenersBySpaceHostFromCache, getListenersByHostFromCache, getListenerHostsBySpacePartType, getListenerHostTypeBySpacePartType, loadRemoteListeners, checkTagIndexed, checkEdgeIndexed"]}
{"id": "C125", "title": "Downloads and ingests ask the leader for exactly what was asked and report what it said", "statement": "download and ingest ask the web service of the meta leader through one call of curl whose address names exactly the arguments of the call, so different downloads ask for different things; the future holds true exactly if the answer is the text of success and false otherwise. (Exceptions, exhibited: if curl cannot be run, download reads a missing value instead of giving false; arguments are not escaped, so a host or path with an ampersand asks for something else.)", "quantifier": "all hosts, ports, paths and spaces without characters that mean something in an address or to a shell, all outputs of curl", "why_tests_cant": "The outcome depends on every possible answer of the service and every text of the arguments.", "anchors": ["src/common/clients/meta/MetaClient.cpp: download, ingest", "src/common/http/HttpClient.cpp: get"]}
{"id": "C126", "title": "Calls about the same key or vertex meet in the same part", "statement": "A put through the storage client leaves every given key with the last value given and every other key alone, a remove takes away exactly the given keys, and the answers to a get are exactly the keys asked for that hold something, with what they hold, so a get after a put sees it; whatever the number of parts, the leaders (also if they move in between) and the order in which hosts work. An update of a vertex or edge goes to the leader and part that inserts, deletes and reads of it go to, a scan to the leader of its part, a lookup to every part once. If the space is unknown or a part has no leader, nothing is sent.", "quantifier": "all keys, values, lists, numbers of parts, leaders, orders of execution and contents of the parts", "why_tests_cant": "Routing must be right for every key and every layout of the cluster.", "anchors": ["src/common/clients/storage/GeneralStorageClient.cpp: get, put, remove", "src/common/clients/storage/GraphStorageClient.cpp: updateVertex, updateEdge, getUUID, scanEdge, scanVertex, lookupIndex, lookupAndTraverse"]}
{"id": "C127", "title": "Value variables behave as separate values and give back their memory", "statement": "In every program of constructions, copies, moves, assignments (also to and from nested values), setters from payloads, clears, swaps, moves out and ends of Value variables, every call works without touching a destroyed object, a null pointer or the wrong union member; each variable and nested value is what a program with plain values would have (copies are independent, a value moved from is empty, an assignment replaces just its destination, self assignment changes nothing), with the type that belongs to what it holds; and whatever is alive belongs to exactly one variable, so that nothing is left when all have ended.", "quantifier": "all programs of calls of any length, all values of any depth, all references to nested values", "why_tests_cant": "A leak, a double free or a shared part shows only in some order of copies, moves and assignments of nested values; the programs and depths are unbounded.", "anchors": ["src/common/datatypes/Value.h: union Storage, swap, destruct", "src/common/datatypes/Value.cpp: Value, operator=, clear, setStr, setVertex, setEdge, setPath, setList, setMap, setSet, setDataSet, moveStr, moveList, ..."]}
{"id": "C128", "title": "Directory listings are complete, and iterators open what a path leads to", "statement": "Listing the entries of a type in a directory gives every file of that type whose name matches the pattern, exactly once, as a name or as a path that leads to it, and nothing else ('.' and '..' never), whether or not the file system tells the types of entries. An iterator over a path gives the lines of the file or the names in the directory the path leads to, directly or through links, and is invalid if that cannot be read.", "quantifier": "all directories, entries, types, patterns, paths and links", "why_tests_cant": "The contents of directories are unbounded, and the file system of a test usually tells the types of entries.", "anchors": ["src/common/fs/FileUtils.cpp: listAllTypedEntitiesInDir, listAllFilesInDir, listAllDirsInDir, Iterator, openFileOrDirectory", "src/common/fs/FileUtils.h: CHECK_TYPE"]}
{"id": "C129", "title": "Administrative calls reach the meta service as they were made", "statement": "Each of the 78 administrative calls of the meta client (spaces, schemas, indexes, users, roles, balance, configuration, snapshots, listeners, zones, groups, full-text, sessions, jobs) sends a request from which the service, reading meta.thrift, understands exactly that call with all its arguments in their places; different calls send different requests; a call that succeeds was carried out in the state one of its attempts met, and the caller gets what the service answered. Reading the default value of a property asks for a key that no other property has.", "quantifier": "all calls and arguments, all services, all losses of requests and answers, all actions of other clients", "why_tests_cant": "Whether an argument ends up in the right field can be seen for a few values, but that no two calls can be confused ranges over all of them.", "anchors": ["src/common/clients/meta/MetaClient.cpp: createSpace ... killQuery", "src/common/interface/meta.thrift"]}
{"id": "C130", "title": "Starting and destroying the web service", "statement": "start() returns OK exactly if the server listens, and the server's error otherwise, however the listener thread and the caller interleave; no wake-up is lost; after OK the port flags name the ports listened on; a later start() of a running service returns OK and leaves it running; the destructor returns only when the listener has ended. A request goes to the first route of the owner that matches, then to the flags, statistics and status of the service, and is otherwise not found.", "quantifier": "all interleavings of the owner and the listener, all outcomes of the server, all sequences of calls, all requests", "why_tests_cant": "The order in which the listener tells that it is done, the caller sees it and the listener wakes it up is chosen by the scheduler; a test sees one order.", "anchors": ["src/common/webservice/WebService.cpp: WebService::start, ~WebService", "src/common/webservice/WebService.h: router, started"]}
{"id": "C131", "title": "What is written is what the interface files declare, in no more bytes than announced", "statement": "The bytes written for a value, a key-value pair, an address and an answer of the graph service are those of the structure that common.thrift and graph.thrift declare for it (field numbers, types, order, options). serializedSize and serializedSizeZC announce the same number, the most bytes that the declared structure can take, and never fewer bytes than are written.", "quantifier": "all values of any nesting, all answers and plans, both size functions", "why_tests_cant": "Buffers are allocated by the announced size; that it suffices must hold for every nesting and length, and a reader in another language relies on the layout of every structure.", "anchors": ["src/common/datatypes/ValueOps.inl, VertexOps.inl, EdgeOps.inl, PathOps.inl, ListOps.inl, MapOps.inl, SetOps.inl, DataSetOps.inl, DateOps.inl, HostAddrOps.inl, KeyValueOps.inl: write, serializedSize, serializedSizeZC", "src/common/graph/*Ops.inl", "src/common/interface/common.thrift", "src/common/interface/graph.thrift"]}
{"id": "C132", "title": "The storage service is asked what the caller asked for", "statement": "A call of the storage clients sends each leader one request, which the service, reading storage.thrift, understands as that call with all its arguments in their places (an order, filter or condition left out is the empty one); together the requests ask every part for exactly the rows, vertices, edges, keys or pairs of the call that belong to it, in order, with ids as they are stored. Updates go to the part of the vertex or source, scans to the part they name, lookups to every part once. If the space or a leader is not known nothing is sent. Different calls send different requests. The value of a key is asked from the part of the vertex in the key.", "quantifier": "all calls of the three clients, all arguments, numbers of parts and leaders", "why_tests_cant": "Some twenty calls have up to thirteen arguments of the same types, many of them optional and some dropped when empty; tests with one host and default arguments do not see an argument that is lost or swapped.", "anchors": ["src/common/clients/storage/GraphStorageClient.cpp: getNeighbors, getProps, addVertices, addEdges, deleteEdges, deleteVertices, deleteTags, updateVertex, updateEdge, getUUID, lookupIndex, lookupAndTraverse, scanEdge, scanVertex", "src/common/clients/storage/GeneralStorageClient.cpp: get, put, remove", "src/common/clients/storage/InternalStorageClient.cpp: getValue, forwardTransaction", "src/common/interface/storage.thrift"]}
{"id": "C133", "title": "Threads sharing a meta client do not race and do not block each other", "statement": "A meta client is used by many threads while its own thread refreshes what it has cached. No two threads are ever at the same member of the client at once with one of them writing it, and no combination of calls gets stuck: whatever any number of threads are in the middle of, they can all finish.", "quantifier": "all numbers of threads, all combinations of calls, all branches and loops taken, all interleavings", "why_tests_cant": "A race or a deadlock shows only in particular interleavings of particular pairs of calls, of which there are thousands.", "anchors": ["src/common/clients/meta/MetaClient.h: localCacheLock_, hostLock_, leadersLock_, leaderIdsLock_, listenerLock_, configCacheLock_, registerListener, unRegisterListener, updateActive, updateLeader", "src/common/clients/meta/MetaClient.cpp: loadData, loadCfg, heartbeat, heartBeatThreadFunc, isMetadReady, waitForMetadReady, stop, refreshCache, getResponse, diff, listenerDiff, loadRemoteListeners, all *FromCache functions, download, ingest"]}
{"id": "C134", "title": "Threads sharing statistics, caches, pools, latches, workers and answers do not race", "statement": "The statistics, the LRU cache, the object pool, the latch, the barrier, the worker and the collected answer of a storage call may be used by any number of threads at once: no two threads are ever at the same member of such an object with one of them writing it, and no combination of calls gets stuck on a lock.", "quantifier": "all numbers of threads, all combinations of calls, all counters and buckets, all branches and loops taken, all interleavings", "why_tests_cant": "A race shows only in particular interleavings of particular pairs of calls, and mostly not even then in its effects.", "anchors": ["src/common/stats/StatsManager.cpp: registerStats, registerHisto, addValue, readStats, readHisto, readAllValue", "src/common/base/ConcurrentLRUCache.h: contains, insert, get, putIfAbsent, evict, clear, total, hits, evicts", "src/common/base/ObjectPool.h: add, clear, empty", "src/common/concurrent/Latch.cpp, Barrier.cpp", "src/common/thread/GenericWorker.cpp, GenericWorker.h", "src/common/clients/storage/StorageClientBase.h: StorageRpcResponse"]}
{"id": "C135", "title": "Workers and pools can be started, stopped, waited for, started again and destroyed", "statement": "From the end of start to stop a worker's thread is there and handles what is added; after stop, wait always comes to return, and then every task added before the stop has run; however often a worker is started, each task runs at most once and in order; starting it again works; destroying it uses no freed memory and leaves nothing behind. The same for a pool: between start and wait every call reaches a worker that exists. (The code violates: starting a stopped worker that has not been waited for ends the process; each further start leaks an event base, a descriptor and an event; destroying a worker with an active timer frees the timer's event after its base; a task added while start is under way ends the thread for good; after a failed start a pool sends tasks to workers that do not exist, and after wait it divides by zero.)", "quantifier": "all histories of calls of start, stop, wait, the destructor and the adding calls, interleaved with all steps of the worker's thread, any number of starts", "why_tests_cant": "The failures need particular orders of calls and particular moments of the worker's thread; leaks and use of freed memory do not show in results.", "anchors": ["src/common/thread/GenericWorker.cpp: start, stop, wait, ~GenericWorker, onNotify, ~Timer", "src/common/thread/GenericThreadPool.cpp: start, stop, wait, purgeTimerTask", "src/common/thread/GenericThreadPool.h: addTask, addDelayTask, addRepeatTask"]}
{"id": "C136", "title": "The future of a task tells what the task did", "statement": "The future returned for a task is settled with the value the task returned or the exception it threw; once the worker has been destroyed no future is left waiting; when wait returns after stop, the futures of all tasks added before the stop are settled; a settled future does not change. (The code violates this for tasks without a result: the class and text of an exception are lost, anything not derived from std::exception ends the process, and so does any exception of a repeated task.)", "quantifier": "all tasks with all results and exceptions, all histories of the worker", "why_tests_cant": "All kinds of exceptions, and all moments at which the worker may be stopped or destroyed.", "anchors": ["src/common/thread/GenericWorker.h: addTask, addDelayTask, addRepeatTask, addTimerTask", "src/common/thread/GenericWorker.cpp: onNotify"]}
{"id": "C137", "title": "Times are converted by the offset of the zone that is in force", "statement": "Once the zone has been initialised, from a POSIX string or a region name, every conversion between UTC and local time adds or subtracts exactly the offset of that zone; converting there and back is the identity; the current local date, time and date-time are the current UTC ones plus the offset. A failed initialisation reports an error and leaves the process able to convert. (The code violates: the current local date, time and date-time are off by twice the offset, because the offset is subtracted instead of added; and after a failed lookup of a region the zone is a null pointer that the next conversion follows.)", "quantifier": "all zone settings, all histories of initialisations, all times", "why_tests_cant": "Tests run with offset zero, where the wrong sign cannot be seen; the null pointer needs a failed initialisation followed by a conversion.", "anchors": ["src/common/time/TimezoneInfo.h: init, parse, utcOffsetSecs", "src/common/time/TimezoneInfo.cpp: initializeGlobalTimezone", "src/common/time/TimeUtils.h: dateTimeToUTC, utcToDateTime, localDateTime, utcDateTime, localDate, utcDate, timeToUTC, utcToTime, localTime, utcTime"]}
{"id": "C138", "title": "Character sets and collations are accepted exactly when they fit together", "statement": "A character set or a collation is accepted exactly if it is in the list of supported ones; a pair is accepted exactly if both are supported and the collation belongs to the character set; the default collation of each supported set is accepted with it, and the character set derived from a supported collation is the one it belongs to.", "quantifier": "all names of character sets and collations (all byte strings)", "why_tests_cant": "All byte strings, and agreement between four tables that are kept by hand.", "anchors": ["src/common/charset/Charset.h: CharsetInfo", "src/common/charset/Charset.cpp: isSupportCharset, isSupportCollate, charsetAndCollateMatch, getDefaultCollationbyCharset, getCharsetbyCollation"]}
{"id": "C139", "title": "Temporary files and directories are fresh, do not meet, and are removed", "statement": "A temporary file or directory is made where nothing was, under a name made from the template, and nothing else changes; objects that exist have different paths; what was there before stays untouched; one that is not to be removed is left behind as it is; when all others are destroyed the disk is as it was at first. If it cannot be made, a file throws and a directory has an empty path. (The code violates: the path is a null pointer rather than empty; if another process removes the path meanwhile, two objects can have the same path and one removes what the other made; content that cannot be removed, such as a socket, stays behind silently.)", "quantifier": "all templates, all histories of creation, use and destruction of any number of objects, all contents put at the paths", "why_tests_cant": "All interleavings of objects and all contents; the names are random.", "anchors": ["src/common/fs/TempDir.h: path", "src/common/fs/TempDir.cpp: TempDir, ~TempDir", "src/common/fs/TempFile.cpp: TempFile, ~TempFile, path"]}
{"id": "C140", "title": "Memory use is reported right, and the watermark is told from it", "statement": "Total, free and buffered memory are reported in KB as the system has them, used memory is total less free less buffered, and the high watermark is hit exactly if the used part of the total is larger than the given ratio. (The code violates the last above 16 GB: the comparison is made in single precision, so that it can miss a watermark or tell of one that is not reached.)", "quantifier": "all amounts of memory and all ratios", "why_tests_cant": "All amounts; the error needs more memory than a test machine has.", "anchors": ["src/common/base/Memory.h: totalInKB, freeInKB, bufferInKB, usedInKB, hitsHighWatermark", "src/common/base/Memory.cpp: make, init"]}
{"id": "C141", "title": "A daemon is detached from where it was started", "statement": "After a successful call exactly one process goes on: a new one that leads its own session and group, has no terminal, reads from /dev/null, has all other descriptors as before, and whose pid file holds its id; what the process wrote before appears once. If the fork fails, an error is returned and nothing has changed. (The code violates: if the standard input was closed at the start it stays closed and the next file opened takes its place; if /dev/null cannot be opened the old input is kept silently; buffered output appears twice; threads started before are gone.)", "quantifier": "all tables of descriptors, all ids, all outcomes of the system calls, all contents of the buffers", "why_tests_cant": "All outcomes of fork, open and setsid and all tables of descriptors; a test sees the usual three.", "anchors": ["src/common/process/ProcessUtils.cpp: daemonize, makePidFile"]}
{"id": "C142", "title": "Threads know their ids and have the names given to them", "statement": "gettid gives the id of the calling thread, however often it is asked; a thread made with a name has it, one made without has that of its maker; after the scope of a Nominator the thread has the name it had before, whatever was done inside. (The code violates: after a fork in a thread that had asked, the new process is given the old id for ever; names are cut at 15 bytes, as that of the web service's thread is, and then cannot be told apart.)", "quantifier": "all histories of threads, forks and names, all nestings of scopes, all names", "why_tests_cant": "All histories and nestings; the cached id is wrong only after a fork.", "anchors": ["src/common/thread/NamedThread.h: NamedThread, Nominator, hook", "src/common/thread/NamedThread.cpp: gettid, TLSThreadID", "src/common/webservice/WebService.cpp: start"]}
{"id": "C143", "title": "What is told about files, disks and processes is what is there", "statement": "The size and last change of a file are told, and that a missing one is missing; a path exists exactly if following its links leads to something; the content of a link is told; free and available bytes of a disk are told, the latter never more than the former; program, directory and name of a process and the largest id are what the system says. (The code violates: through a link the size and time of the link are told; a missing file has size 0 like an empty one; a link longer than 1024 bytes is cut silently; the bytes of a disk wrap at 2^64; a name with a line end is cut.)", "quantifier": "all file systems with links, all contents of links and of /proc, all numbers of blocks", "why_tests_cant": "All chains of links, lengths and sizes.", "anchors": ["src/common/fs/FileUtils.cpp: fileSize, fileLastUpdateTime, exist, readLink, free, available", "src/common/process/ProcessUtils.cpp: getExePath, getExeCWD, getProcessName, maxPid"]}
{"id": "C144", "title": "An operand keeps its value while the other operands are evaluated", "statement": "Evaluating an expression gives what it gives if every operand is copied when it has been evaluated: no operand, argument, collection or initial value is changed or freed by the evaluation of another part before it is used, and what a caller has got stays as it is until a variable is assigned that the expression refers to. (The code violates: operands are held as references, so $x - ++$x is 0 or reads freed memory, f($x, ++$x) gets the new value twice, and [n IN $n | ...] and reduce(a = ..., v IN $a | ...) iterate over a list they have freed.)", "quantifier": "all expressions, all contexts, whether the context assigns variables in place or replaces them", "why_tests_cant": "All nestings of expressions; what is read after it has been freed often still looks right.", "anchors": ["src/common/expression/ArithmeticExpression.cpp: eval", "src/common/expression/FunctionCallExpression.cpp: eval", "src/common/expression/SubscriptExpression.cpp: eval", "src/common/expression/AttributeExpression.cpp: eval", "src/common/expression/PredicateExpression.cpp: eval", "src/common/expression/ListComprehensionExpression.cpp: eval", "src/common/expression/ReduceExpression.cpp: eval", "src/common/context/ExpressionContext.h: getVar, setVar"]}
{"id": "C145", "title": "A copy of an expression shares nothing with the original", "statement": "clone() of an expression returns an expression made of new objects only, equal to what C95 says, in the same pool, and changes no object that was there; so whatever is done later with any other objects leaves the copy as it is, and whatever is done with the copy leaves every earlier expression as it is. A setter changes only the expressions the object is part of. (The code violates, where objects are not copied: a part used in two expressions is changed in both by a setter; the copy of n + 1 objects that are each used twice takes 2^(n+1) - 1 objects; a setter can make an expression a part of itself, and then clone() does not return; an argument added to a call leaves the function that was found for the old number of arguments, while the copy finds another one.)", "quantifier": "all expressions, all ways their objects are shared, all later additions and changes of objects, all pools", "why_tests_cant": "All shapes and sharings of objects and all later histories of changes; a shared part is only seen when it is changed.", "anchors": ["src/common/expression/Expression.h: clone", "src/common/expression/FunctionCallExpression.h: ArgumentList, addArgument", "src/common/expression/LogicalExpression.h: clone, setOperand", "src/common/expression/CaseExpression.h: clone", "src/common/expression/ContainerExpression.h: clone", "src/common/base/ObjectPool.h: add, makeAndAdd, clear"]}
{"id": "C146", "title": "Iterating over a schema and its life time", "statement": "From begin() of a schema, after any increments and jumps, the iterator is at the field that many places on, or at the end, where further moves have no effect; it converts to true exactly at a field, equals end() exactly otherwise, and two iterators are equal exactly if they are over the same schema and at the same field or both at the end. getFieldName gives the name of every field and null for other indexes. getTTLInfo gives the column and the duration exactly if a column that is not empty and a duration above zero were set. (The code violates: it + n moves it itself; names are cut at a NUL, so that getFieldName may give the same name for two fields; the column of the life time need not exist in the schema or hold a time.)", "quantifier": "all schemas, all sequences of increments and jumps, all pairs of iterators, all indexes, all schema properties", "why_tests_cant": "Tests iterate over one or two schemas from begin to end; jumps past the end, comparisons of iterators that got there in different ways and unset or non-positive durations are unlimited in number.", "anchors": ["src/common/meta/SchemaProviderIf.h: SchemaProviderIf::Iterator, begin, end", "src/common/meta/NebulaSchemaProvider.cpp: getFieldName, setProp, getTTLInfo"]}
{"id": "C147", "title": "What the logging macros evaluate and send", "statement": "LOG of a severity other than FATAL evaluates its operands and sends one message if the level in force is at most the severity, and evaluates nothing otherwise; LOG(FATAL) always evaluates its operands and ends the process. LOG_IF evaluates its condition exactly once and is LOG if it holds. Among the executions of one LOG_EVERY_N(s, n) with n of at least 1, the first, the n+1st, the 2n+1st and so on send a message carrying the number of the execution if the level allows it at that time, and no others do; LOG_IF_EVERY_N sends at those of them at which its condition holds; LOG_FIRST_N(s, n) sends at most at the first n executions, and at each of them if the level allows it. (The code violates: above level FATAL, LOG_IF(FATAL, true) and PLOG(FATAL) do not end the process; the number is evaluated twice; a negative number sends nothing; the 2147483648th execution overflows; executions at which the condition fails are counted, so that a condition that holds every second time may never be reported; two threads may both miss the first message.)", "quantifier": "all severities, levels that change over time, conditions, numbers and numbers of executions; debug and release builds; two threads", "why_tests_cant": "Tests execute a macro a few times at one level on one thread; the counts after any history of levels and conditions, the overflow after 2^31 executions and the interleavings of two threads are out of their reach.", "anchors": ["src/common/base/Logging.h: LOG, PLOG, LOG_IF, LOG_EVERY_N, LOG_IF_EVERY_N, LOG_FIRST_N, DLOG, DLOG_IF"]}
{"id": "C148", "title": "Values and answers through protocols that identify fields by name", "statement": "A value, a table, a key-value pair, a host address or an answer of the graph service that is written with a protocol that identifies fields by their names (the JSON protocol) is read back as it was, just as with the protocol that identifies them by number: each field that was set is set again and the others are not, edge types are reduced to their direction. The documents are those that the interface files declare: the names, numbers and types of fields are the declared ones, in the writers and in the readers. The order of the fields within a structure does not matter, and fields with unknown names are passed over wherever they are. A value is one field or none: no field reads as the empty value, two fields are refused, an unknown field leaves the object as it was. (The code violates: the name of the field of a set is translated to another type than the one its reader accepts, so that the elements of every set, at any depth, are passed over and the set arrives empty.)", "quantifier": "all values of any nesting within the ranges of their fields, all answers and plans, all orders of fields, all further fields", "why_tests_cant": "The tests write and read with the compact and binary protocols only, and a few values; nesting, orders of fields and unknown fields are unbounded.", "anchors": ["src/common/datatypes/*Ops.inl: translateFieldName, read, write", "src/common/datatypes/SetOps.inl: translateFieldName, read", "src/common/graph/*Ops.inl: translateFieldName, read, write", "src/common/interface/common.thrift, graph.thrift: structures"]}
{"id": "C149", "title": "Matching a text against a pattern", "statement": "text =~ pattern is true exactly if the whole text belongs to the language of the pattern (the part of the ECMAScript grammar that is modelled: characters, '.', classes, groups, alternatives, *, +, ?, ^, $), and BAD_TYPE if the library refuses the pattern; it does not depend on the patterns matched before in the same context. A pattern without special characters matches only itself; one with '.' and '.*' is a wildcard over one line, so that '.*word.*' agrees with CONTAINS for texts of one line. p|q matches what p matches and what q matches, (p) what p matches, (p)(q) a text of p followed by one of q, (p)* any number of texts of p, (p)? a text of p or nothing. A search finds the earliest piece that belongs to the language. The hand-written matchers in the models of paths, ports, pid files, segments, comments and routes do what the patterns in the source mean.", "quantifier": "all texts, all patterns of the modelled grammar, all histories of patterns in a context", "why_tests_cant": "unbounded texts, patterns and histories", "anchors": ["src/common/expression/RelationalExpression.cpp kRelREG", "src/common/context/ExpressionContext.h getRegex", "src/common/fs/FileUtils.cpp dirname basename", "src/common/network/NetworkUtils.cpp getPortsInUse", "src/common/process/ProcessUtils.cpp isPidAvailable maxPid", "src/common/meta/Common.h checkSegment", "src/common/conf/Configuration.cpp parseFromFile", "src/common/webservice/Router.cpp createPattenRegex"]}
{"id": "C150", "title": "Names printed for codes, kinds and types tell them apart", "statement": "The program and the interface file declare the same error codes under the same names; no two codes share a number or a name, success is 0 and every other code is negative; for every number a code can be, the text printed is the declared name, or \"Unknown error\" if there is none, so that the text of a declared code tells the number. Different kinds of expressions print different names, and a byte that is no kind prints nothing. Different types of values have different names, and so have different nulls, and no value is of unknown type. (The last part fails for the null OUT_OF_RANGE, whose type name is __UNKNOWN__; exhibited.)", "quantifier": "every number an error code, a kind or a type can hold, every value", "why_tests_cant": "Tests print a few codes; that no two of over a hundred coincide, that both declarations agree everywhere and that every other number is reported as unknown is about all numbers.", "anchors": ["src/common/graph/Response.h ErrorCodeEnums", "src/common/graph/Response.cpp errorCode", "src/common/interface/common.thrift ErrorCode", "src/common/expression/Expression.cpp operator<<(std::ostream&, Expression::Kind)", "src/common/datatypes/Value.cpp Value::typeName, operator<<(std::ostream&, const Value::Type&)"]}
{"id": "C151", "title": "What is stored for full-text search is found", "statement": "Given a shell that runs plain commands and a search engine that does what it is asked, storing one document or many succeeds and the engine has them afterwards, keyed by part, column and value cut to 256 bytes; storing many at once is storing them one after the other. After any calls that store, a search (prefix, wildcard, regexp or fuzzy) succeeds and appends the values of the documents of the index and the column that match the text (for a prefix search: that begin with it; for the others, what the engine takes for a match): each once for every part it was stored for, in some order, no more than asked for, and nothing else. Creating, dropping and looking for an index make one request each. Whatever the engine does, a call says yes exactly if the answer says so (created, updated, no errors, acknowledged, an index is named), is an error exactly if nothing came back, and an error adds no rows. A value of more than 256 bytes should be found by itself; it is not, because it is cut when stored and not when searched for.", "quantifier": "all sequences of storing calls with any values (bytes of any kind), columns, parts and plain index names; all engines and shells as described; all kinds of search, search texts, limits and rows already there; all order in which JSON members are written", "why_tests_cant": "needs every value (quotes, escapes, invalid UTF-8), every history and every order of members, through the shell, JSON and back; tests run against one engine or only compare command texts", "anchors": ["src/common/plugin/fulltext/elasticsearch/ESStorageAdapter.cpp: ESStorageAdapter::put, bulk, putCmd, bulkCmd, checkPut, checkBulk", "src/common/plugin/fulltext/elasticsearch/ESGraphAdapter.cpp: ESGraphAdapter::prefix, createIndex, dropIndex, indexExists, result, statusCheck, indexCheck", "src/common/process/ProcessUtils.cpp: ProcessUtils::runCommand"]}
{"id": "C152", "title": "The lives of the handlers of HTTP requests", "statement": "However the calls for requests served at the same time interleave, and however a request ends (answered, answered but broken, broken before its end): its handler stays until the request has ended and is deleted then; no handler is used after its deletion or deleted twice; a request that has come to its end is answered exactly once, any other not at all; the answer and the flags afterwards depend only on the head, on the bytes of the body however they are cut into pieces, and on the flags at that moment. The deletion fails for requests for the status that end with an error: their handlers are never deleted.", "quantifier": "every history of calls that the HTTP library may make: any number of requests, interleaved in any way, with any heads, any number and sizes of pieces, any end; every set of flags", "why_tests_cant": "interleavings, pieces and ends of requests are unboundedly many, and a leak or a use after deletion is not seen in an answer", "anchors": ["src/common/webservice/GetFlagsHandler.cpp: GetFlagsHandler", "src/common/webservice/SetFlagsHandler.cpp: SetFlagsHandler", "src/common/webservice/GetStatsHandler.cpp: GetStatsHandler", "src/common/webservice/StatusHandler.cpp: StatusHandler::onError", "src/common/webservice/NotFoundHandler.cpp: NotFoundHandler"]}
{"id": "C153", "title": "Setting and reading flags at the same time", "statement": "However requests that set and read flags interleave on the threads of the web service: a request that sets flags is told that exactly those failed that do not exist or that refuse the text, as if it were alone; at every moment each flag has its old value or one that some request asked for and the flag accepts, and when all requests have finished, each flag for which an acceptable text was asked has such a text and the others are as before; what a reader is told about a flag is what the flag was at one moment, at moments that follow the order of the names, and a request for all flags sees one moment; setting flags to scalars never ends the process. Requests do not take effect as a whole: two of them can leave a mixture, and a reader can see half of one.", "quantifier": "every number of requests, every list of items and names, every schedule of their calls, every set of flags with distinct names", "why_tests_cant": "races between threads appear in few of unboundedly many schedules", "anchors": ["src/common/webservice/SetFlagsHandler.cpp: SetFlagsHandler::onEOM", "src/common/webservice/GetFlagsHandler.cpp: GetFlagsHandler::getFlags", "src/common/webservice/WebService.cpp: FLAGS_ws_threads"]}
{"id": "C154", "title": "A session manager outlives what its worker runs", "statement": "Whatever tasks and timers are put into the worker of a session manager, and however its thread runs against the thread that destroys the manager: what the worker runs, it runs while the manager's members exist; all tasks put in before the destructor stops the worker have run when its wait returns; the destructor always comes to its end, and it uses no freed memory. (The code violates: the part of a derived class is destroyed before the worker is stopped, so that tasks and timers can run when it is gone, unless the derived class waits for the worker itself; and if a timer is armed when the manager is destroyed, freed memory is used.)", "quantifier": "every history of a manager: any tasks and timers, any interleaving of the worker's thread with the constructor, the users and the destructor", "why_tests_cant": "whether a timer fires between two destructors depends on the schedule", "anchors": ["src/common/session/SessionManager.h: SessionManager", "src/common/thread/GenericWorker.cpp: GenericWorker"]}
{"id": "C155", "title": "A client can be destroyed once its requests are answered", "statement": "However many requests have been made of a storage client and of the meta client it uses, and however the IO threads run them: if a client is destroyed only after every request that needs it has been answered, then nothing uses it afterwards. Each request is answered at most once, and one that has not been answered can always go on. (The code violates this for requests to a single storage host, those of the internal client among them: if the call fails, the caller is answered first and the clients are used after that. Destructors wait for no request: a client destroyed before an answer has come is used afterwards.)", "quantifier": "every history of requests to one host, several hosts and the meta server, every interleaving of their tasks, replies, retries and continuations with each other and with the destruction of the clients", "why_tests_cant": "whether a continuation still runs when its caller has been answered and has destroyed the client depends on the schedule", "anchors": ["src/common/clients/storage/StorageClientBase.inl: getResponseImpl, collectResponse, ~StorageClientBase", "src/common/clients/storage/InternalStorageClient.cpp: forwardTransactionImpl, getValueImpl", "src/common/clients/meta/MetaClient.cpp: getResponse, ~MetaClient, stop"]}
{"id": "C156", "title": "Connections are closed when nobody has them any more, and once", "statement": "However threads ask a client manager for connections, copy and drop the pointers they got, and end, and whenever the manager is destroyed: a connection given to a caller is open and stays open while the caller has it; the connections closed are exactly those that no caller has and no thread would give to a later call; none is closed twice; when all callers have dropped theirs and the maps of the threads are gone, every connection made has been closed. (A connection to a host name whose address is known already is closed as soon as its caller drops it.)", "quantifier": "every sequence of calls, copies, drops and ends of maps on any number of threads, for every state of the connections at each call", "why_tests_cant": "a connection closed too early or never shows only under particular orders of calls, hang-ups and ends of threads", "anchors": ["src/common/thrift/ThriftClientManager.inl: client", "src/common/thrift/ThriftClientManager.h: clientMap_"]}
{"id": "C157", "title": "Routes whose text is a regular expression", "statement": "A route is a text in which every `:name` stands for a parameter and whatever else it contains is read as a regular expression. A request is answered by the first route of its method whose expression finds a match in the path without its trailing slash, and the parameters are what the groups of that match hold; routes of plain text and parameters are answered as C61 says. A request with a known method never ends the process as long as every route has exactly one group per parameter and nothing that tells the end of the path (`$`). (Otherwise it does: a route with groups of its own aborts the process on every request it matches, and a route that ends in `$` on every path with a trailing slash; exhibited.)", "quantifier": "all route texts that are regular expressions of the modelled grammar, all lists of routes, all methods and paths", "why_tests_cant": "Which path makes a route abort depends on the interplay of the route's text, its groups and the trailing slash; tests use routes of plain text.", "anchors": ["src/common/webservice/Router.cpp: Route::createPattenRegex", "src/common/webservice/Router.cpp: Route::matches", "src/common/webservice/Router.cpp: Route::generateHandler", "src/common/webservice/Router.cpp: Router::dispatch"]}
{"id": "C158", "title": "An expression that was received can be sent on", "statement": "Whatever bytes an expression was decoded from, well formed or not, the expression that came out can be encoded again, and from that encoding, whatever follows it, the next host decodes the same expression (its constants as the wire format delivers them). (Three kinds of received expressions cannot: a generated id with an empty field ends the host that sends it on, a range without bounds makes the next host read past the end of the bytes, and a column ends the next host; exhibited.)", "quantifier": "every byte string of less than 4 GiB that decodes to an expression, every continuation of the bytes", "why_tests_cant": "the inputs are arbitrary bytes, not the encodings that tests produce; expressions nest without bound", "anchors": ["src/common/expression/Expression.cpp: Expression::decode, Expression::encode, Encoder, Decoder", "src/common/expression/UUIDExpression.cpp: writeTo, resetFrom", "src/common/expression/SubscriptExpression.cpp: SubscriptRangeExpression::writeTo, resetFrom", "src/common/expression/ColumnExpression.cpp: writeTo, resetFrom"]}
{"id": "C159", "title": "A value that was received can be sent on", "statement": "Whatever bytes a value was deserialised from, well formed or not and by whatever version written: its numbers are in the range of their types, its sizes can be expressed, the keys of its maps are distinct and its sets hold no value twice, at every depth; so it can be serialised again, and the next host receives it and finds its end. The next host receives the very value if the types of its edges and steps are directions, and from then on no host changes anything. (An edge type other than -1, 0 and 1 that arrives is replaced by its direction; exhibited.)", "quantifier": "every byte string that deserialises to a value, every continuation of the bytes, any number of hosts", "why_tests_cant": "the inputs are arbitrary bytes, including fields repeated, reordered, unknown or of other types; values nest without bound", "anchors": ["src/common/datatypes/ValueOps.inl: Cpp2Ops<Value>::read, write", "src/common/datatypes/EdgeOps.inl", "src/common/datatypes/VertexOps.inl", "src/common/datatypes/PathOps.inl", "src/common/datatypes/ListOps.inl", "src/common/datatypes/MapOps.inl", "src/common/datatypes/SetOps.inl", "src/common/datatypes/DataSetOps.inl", "src/common/datatypes/DateOps.inl"]}
{"id": "C160", "title": "An answer of the graph service that was received can be sent on", "statement": "Whatever bytes an answer of the graph service was read from, well formed or not and by whatever version written: its numbers are in the range of their types, its sizes can be expressed and the keys of its maps are distinct, in all its parts (table, plan, nodes, profiles, branches); so it can be written again, and the next host reads the same answer and finds its end: error code, latency, space, message, comment and plan unchanged, the table as its values travel (C67). From the second host on nothing changes at all.", "quantifier": "every byte string from which an answer to a login or to a query, or a plan, is read; every continuation of the bytes; any number of hosts", "why_tests_cant": "the inputs are arbitrary bytes, including fields repeated, reordered, unknown or of other types; tables and plans are of any size", "anchors": ["src/common/graph/ExecutionResponseOps.inl", "src/common/graph/AuthResponseOps.inl", "src/common/graph/PlanDescriptionOps.inl", "src/common/graph/PlanNodeDescriptionOps.inl", "src/common/graph/ProfilingStatsOps.inl", "src/common/graph/PlanNodeBranchInfoOps.inl", "src/common/graph/PairOps.inl"]}
{"id": "C161", "title": "A host between a server and a client of another protocol is transparent", "statement": "A value or an answer to a query goes from a server to a host in the compact protocol and on to a client in a protocol with field names (JSON): the client reads what it would have read had the server written to it directly. In the other direction, what the host read from a client reaches the server unchanged. Whatever was received in either protocol, from whatever bytes or document, is in the range of its types and can be given out in the other.", "quantifier": "every value and answer that fits the wire, of any nesting; for the last part every byte string, and every document whose sizes have 31 bits", "why_tests_cant": "values nest without bound, and it has to hold of every combination of kinds, including those for which the two protocols disagree", "anchors": ["src/common/datatypes/*Ops.inl: translateFieldName, read, write", "src/common/datatypes/SetOps.inl: translateFieldName, read", "src/common/graph/*Ops.inl: translateFieldName, read, write", "src/common/interface/common.thrift, graph.thrift: structures", "src/common/graph/ExecutionResponseOps.inl", "src/common/graph/AuthResponseOps.inl", "src/common/graph/PlanDescriptionOps.inl", "src/common/graph/PlanNodeDescriptionOps.inl", "src/common/graph/ProfilingStatsOps.inl", "src/common/graph/PlanNodeBranchInfoOps.inl", "src/common/graph/PairOps.inl"]}
{"id": "C162", "title": "Received values compare as the sent ones did", "statement": "Two values are sent to another host, separately or together. If they were equal they are equal where they arrive, and if they were different they are different where they arrive; the same for two answers to queries. In particular a set of different elements keeps them all. If one came before the other in the order of values it does so where they arrive.", "quantifier": "all pairs of values of any type and nesting, and all bytes that follow them", "why_tests_cant": "it relates the equality of values, which is defined recursively for all types, to a writer and a reader that change what they carry (edge types become directions); the pairs for which this matters are not those a test of either would choose", "anchors": ["src/common/datatypes/Edge.cpp: Edge::operator==", "src/common/datatypes/EdgeOps.inl: Cpp2Ops<Edge>::write", "src/common/datatypes/PathOps.inl: Cpp2Ops<Step>::write", "src/common/datatypes/Path.h: Step::operator==", "src/common/datatypes/SetOps.inl: Cpp2Ops<Set>::read", "src/common/datatypes/Value.cpp: Value::equals, operator=="]}
{"id": "C163", "title": "An expression evaluates where it arrives as where it comes from", "statement": "An expression (a filter, say) is encoded, sent to another host with anything behind it, decoded there and evaluated: it gives the value it gives where it comes from, for every expression and every context in which variables, properties and aggregates have the same values, whatever was evaluated before on either host. Expressions that are equal where they come from are equal where they arrive.", "quantifier": "all expressions of the kinds that can be encoded, all contexts, all states left by earlier evaluations on either host", "why_tests_cant": "it combines encoder, decoder and evaluator of all kinds of expressions, nested without bound, with all contexts; and the objects on the two hosts have different histories", "anchors": ["src/common/expression/Expression.cpp: Expression::encode, Expression::decode", "src/common/expression/*.cpp: eval, writeTo, resetFrom", "src/common/datatypes/EdgeOps.inl: Cpp2Ops<Edge>::write", "src/common/expression/AttributeExpression.cpp: AttributeExpression::eval"]}
{"id": "C164", "title": "Aggregates of values that were sent", "statement": "Values are sent to another host and aggregated there instead of where they come from. The number functions (COUNT, SUM, AVG, STD, BIT_AND, BIT_OR, BIT_XOR), with DISTINCT or without, give the same number; MAX, MIN, COLLECT and COLLECT_SET give what one would have got by aggregating first and sending the result.", "quantifier": "every aggregate function, with DISTINCT and without, every sequence of values of any kind and depth", "why_tests_cant": "There are unboundedly many sequences of nested values, and whether aggregation and transport commute depends on every comparison made among them.", "anchors": ["src/common/function/AggFunctionManager.cpp: AggFunctionManager::AggFunctionManager", "src/common/expression/AggregateExpression.cpp: AggregateExpression::eval", "src/common/datatypes/ValueOps.inl: Cpp2Ops<Value>::write, read"]}
{"id": "C165", "title": "Functions on values that were sent", "statement": "A value is sent to another host and a function is called on it there instead of where it comes from. The functions that take a value apart (id, tags, labels, properties, keys, type, src, dst, rank, startNode, endNode, nodes, relationships, length, size, head, last, tail, coalesce, reverse, reversePath, dataSetRowCol) give what one would have got by calling them first and sending the result, or fail in the same way; hasSameEdgeInPath and hasSameVertexInPath give the same answer.", "quantifier": "every such function and every value, of any kind and depth", "why_tests_cant": "There are unboundedly many nested values and paths; the wire changes the types of edges inside them, and whether a function sees the change depends on every place where it looks at a type.", "anchors": ["src/common/function/FunctionManager.cpp: FunctionManager::FunctionManager (id, tags, properties, type, src, dst, rank, startnode, endnode, nodes, relationships, hasSameEdgeInPath, hasSameVertexInPath, reversePath, datasetrowcol)", "src/common/datatypes/Path.cpp: Path::hasDuplicateEdges, Path::hasDuplicateVertices, Path::reverse", "src/common/datatypes/EdgeOps.inl: Cpp2Ops<Edge>::write, read", "src/common/datatypes/PathOps.inl: Cpp2Ops<Step>::write, read"]}
