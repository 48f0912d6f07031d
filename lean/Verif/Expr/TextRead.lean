import Verif.Expr.TextSpec
/-!
# A reader of expression texts

Not part of the code: the proof of C120 reads the text of an expression back.  The reader works with fuel, `p` being the reader with less fuel.
-/
namespace Nebula
namespace Expr

/-- What follows a fixed beginning. -/
def lit : Bytes → Bytes → Option Bytes
  | [], s => some s
  | _ :: _, [] => none
  | a :: w, b :: s => if a = b then lit w s else none

def readName (s : Bytes) : Option (Bytes × Bytes) :=
  if IsName (s.takeWhile isWord) then some (s.takeWhile isWord, s.dropWhile isWord) else none

def dotName (s : Bytes) : Option (Bytes × Bytes) := (lit [46] s).bind readName

def number (s : Bytes) : Option (Int × Bytes) :=
  match lit [45] s with
  | some r => some (-(digitsVal 0 (r.takeWhile isDigit) : Int), r.dropWhile isDigit)
  | none => some ((digitsVal 0 (s.takeWhile isDigit) : Int), s.dropWhile isDigit)

def quoted (s : Bytes) : Option (Bytes × Bytes) := (lit [34] (s.dropWhile (· != 34))).map fun r => (s.takeWhile (· != 34), r)

abbrev Reader := Bytes → Option (Expr × Bytes)

/-- Items up to the closing byte. -/
def items (p : Reader) (sep : Bytes) (cl : UInt8) : Nat → Bytes → Option (List Expr × Bytes)
  | 0, _ => none
  | k + 1, s => do
    let (e, r) ← p s
    match lit [cl] r with
    | some q => some ([e], q)
    | none => do
      let q ← lit sep r
      let (es, q) ← items p sep cl k q
      some (e :: es, q)

def entries (p : Reader) : Nat → Bytes → Option (List (Bytes × Expr) × Bytes)
  | 0, _ => none
  | k + 1, s => do
    let (w, r) ← readName s
    let r ← lit [58] r
    let (e, r) ← p r
    match lit [125] r with
    | some q => some ([(w, e)], q)
    | none => do
      let q ← lit [44] r
      let (es, q) ← entries p k q
      some ((w, e) :: es, q)

def whens (p : Reader) : Nat → Bytes → Option (List (Expr × Expr) × Bytes)
  | 0, _ => none
  | k + 1, s =>
    match lit (ascii " WHEN ") s with
    | none => some ([], s)
    | some r => do
      let (w, r) ← p r
      let r ← lit (ascii " THEN ") r
      let (t, r) ← p r
      let (cs, q) ← whens p k r
      some ((w, t) :: cs, q)

/-- An optional part behind a word. -/
def opt (p : Reader) (sep : Bytes) (s : Bytes) : Option (Option Expr × Bytes) :=
  match lit sep s with
  | none => some (none, s)
  | some r => do
    let (e, q) ← p r
    some (some e, q)

def signs : List (Bytes × BinOp) :=
  [BinOp.add, .minus, .multiply, .division, .mod, .le, .lt, .ge, .gt, .eq, .ne, .reg, .inn, .notIn, .contains, .notContains, .startsWith, .notStartsWith, .endsWith, .notEndsWith].map
    fun o => (BinOp.sign o, o)

def opOf (s : Bytes) : Option (BinOp × Bytes) := signs.findSome? fun so => (lit so.1 s).map fun r => (so.2, r)

def logOf (s : Bytes) : Option (LogOp × Bytes) := [LogOp.and, .or, .xor].findSome? fun o => (lit (LogOp.sign o) s).map fun r => (o, r)

def unSign (s : Bytes) : Option (UnOp × Bytes) :=
  [(ascii "++(", UnOp.incr), (ascii "--(", .decr), (ascii "+(", .plus), (ascii "-(", .negate), (ascii "!(", .not)].findSome? fun so => (lit so.1 s).map fun r => (so.2, r)

def testOf (s : Bytes) : Option (UnOp × Bytes) :=
  [UnOp.isNull, .isNotNull, .isEmpty, .isNotEmpty].findSome? fun o => (lit (UnOp.behind o) s).map fun r => (o, r)

/-- The second half of `[lo..hi]`. -/
def closeRange (p : Reader) (e : Expr) (lo : Option Expr) (s : Bytes) : Option (Expr × Bytes) :=
  match lit [93] s with
  | some q => some (.range e lo none, q)
  | none => do
    let (b, q) ← p s
    let q ← lit [93] q
    some (.range e lo (some b), q)

/-- What can follow an expression. -/
def suffix (p : Reader) (e : Expr) (s : Bytes) : Option (Expr × Bytes) :=
  match dotName s with
  | some (w, q) => some (.binary .attribute e (.const (.str w)), q)
  | none =>
    match lit [91] s with
    | some r =>
      (match lit [46, 46] r with
      | some r => closeRange p e none r
      | none => do
        let (a, r) ← p r
        match lit [93] r with
        | some q => some (.binary .subscript e a, q)
        | none => do
          let r ← lit [46, 46] r
          closeRange p e (some a) r)
    | none => (testOf s).map fun oq => (.unary oq.1 e, oq.2)

def post (p : Reader) : Nat → Expr → Bytes → Option (Expr × Bytes)
  | 0, _, _ => none
  | k + 1, e, s =>
    match suffix p e s with
    | some (e', r) => post p k e' r
    | none => some (e, s)

/-- Behind `$`. -/
def dollar (p : Reader) (s : Bytes) : Option (Expr × Bytes) :=
  match lit [45, 46] s with
  | some r => (readName r).map fun wq => (.prop .input (ascii "$-") [] wq.1, wq.2)
  | none =>
    match lit [94, 46] s with
    | some r => do
      let (t, r) ← readName r
      let (w, q) ← dotName r
      some (.prop .src (ascii "$^") t w, q)
    | none =>
      match lit [36, 46] s with
      | some r => do
        let (t, r) ← readName r
        let (w, q) ← dotName r
        some (.prop .dst (ascii "$$") t w, q)
      | none => do
        let (v, q) ← readName s
        match lit [123] q with
        | some q => do
          let (e, q) ← p q
          let q ← lit [125] q
          some (.versionedVar v (some e), q)
        | none =>
          match dotName q with
          | some (w, q) => some (.prop .var (ascii "$") v w, q)
          | none => some (.var v false, q)

def typeOf (w : Bytes) : Option Nat := castTypes.find? fun t => typeName t == w

/-- Behind a left operand. -/
def infixed (p : Reader) (n : Nat) (l : Expr) (s : Bytes) : Option (Expr × Bytes) :=
  match opOf s with
  | some (o, q) => do
    let (r, q) ← p q
    let q ← lit [41] q
    some (.binary o l r, q)
  | none =>
    match logOf s with
    | some (o, q) => do
      let (es, q) ← items p (LogOp.sign o) 41 n q
      some (.logical o (l :: es), q)
    | none => do
      let q ← lit (ascii " ? ") s
      let (t, q) ← p q
      let q ← lit (ascii " : ") q
      let (d, q) ← p q
      let q ← lit [41] q
      some (.case false none (some d) [(l, t)], q)

/-- Behind `(`. -/
def paren (p : Reader) (n : Nat) (s : Bytes) : Option (Expr × Bytes) :=
  match lit [41] (s.dropWhile isWord) with
  | some q => do
    let t ← typeOf (s.takeWhile isWord)
    let (e, q) ← p q
    some (.cast t e, q)
  | none => do
    let (l, q) ← p s
    infixed p n l q

/-- Behind `[`. -/
def bracket (p : Reader) (n : Nat) (s : Bytes) : Option (Expr × Bytes) :=
  match (if IsLabel (s.takeWhile isWord) then lit (ascii " IN ") (s.dropWhile isWord) else none) with
  | some q => do
    let (c, q) ← p q
    let (f, q) ← opt p (ascii " WHERE ") q
    let (m, q) ← opt p (ascii " | ") q
    let q ← lit [93] q
    some (.listComp (s.takeWhile isWord) c f m [], q)
  | none => (items p [44] 93 n s).map fun eq => (.coll .list eq.1, eq.2)

/-- Behind `{`. -/
def brace (p : Reader) (n : Nat) (s : Bytes) : Option (Expr × Bytes) :=
  match lit [58] (s.dropWhile isWord) with
  | some _ => (entries p n s).map fun eq => (.map eq.1, eq.2)
  | none => (items p [44] 125 n s).map fun eq => (.coll .set eq.1, eq.2)

/-- Behind a word and `(`. -/
def callLike (agg : Bytes → Bool) (p : Reader) (n : Nat) (w s : Bytes) : Option (Expr × Bytes) :=
  if w = ascii "uuid" then do
    let q ← lit [34] s
    let (f, q) ← quoted q
    let q ← lit [41] q
    some (.uuid f, q)
  else if w = ascii "reduce" then do
    let (a, q) ← readName s
    let q ← lit (ascii " = ") q
    let (i, q) ← p q
    let q ← lit (ascii ", ") q
    let (v, q) ← readName q
    let q ← lit (ascii " IN ") q
    let (c, q) ← p q
    let q ← lit (ascii " | ") q
    let (m, q) ← p q
    let q ← lit [41] q
    some (.reduce a i v c m [], q)
  else if w = ascii "exists" then do
    let (c, q) ← p s
    let q ← lit [41] q
    some (.predicate w [] c none [], q)
  else if w ∈ predicates then do
    let (i, q) ← readName s
    let q ← lit (ascii " IN ") q
    let (c, q) ← p q
    let q ← lit (ascii " WHERE ") q
    let (f, q) ← p q
    let q ← lit [41] q
    some (.predicate w i c (some f) [], q)
  else if agg w then
    match lit (ascii "distinct ") s with
    | some q => do
      let (e, q) ← p q
      let q ← lit [41] q
      some (.aggregate w true (some e), q)
    | none => do
      let (e, q) ← p s
      let q ← lit [41] q
      some (.aggregate w false (some e), q)
  else
    match lit [41] s with
    | some q => some (.call w [], q)
    | none => (items p [44] 41 n s).map fun eq => (.call w eq.1, eq.2)

def markers : List Bytes := [ascii "WHEN", ascii "ELSE", ascii "END"]

/-- Behind `CASE`. -/
def caseBody (p : Reader) (n : Nat) (s : Bytes) : Option (Expr × Bytes) := do
  let r ← lit [32] s
  let (c, q) ← (if r.takeWhile isWord ∈ markers then some (none, s) else (p r).map fun eq => (some eq.1, eq.2))
  let (cs, q) ← whens p n q
  let (d, q) ← opt p (ascii " ELSE ") q
  let q ← lit (ascii " END") q
  some (.case true c d cs, q)

/-- The words that are expressions. -/
def words : List (Bytes × Expr) :=
  [(ascii "VERTEX", .vertex), (ascii "EDGE", .edge)] ++ ([.empty, .bool true, .bool false, .null .null, .null .badData, .null .badType, .null .divByZero, .null .errOverflow, .null .nan,
    .null .unknownProp, .null .outOfRange] : List Value).map fun v => (v.text (fun _ => []), .const v)

def wordOf (w : Bytes) : Option Expr := words.findSome? fun we => if we.1 = w then some we.2 else none

def plainWord (p : Reader) (n : Nat) (w s : Bytes) : Option (Expr × Bytes) :=
  if w = ascii "CASE" then caseBody p n s
  else if w = ascii "COLUMN" then do
    let q ← lit [91] s
    let (i, q) ← number q
    let q ← lit [93] q
    some (.column i, q)
  else if w = ascii "PathBuild" then do
    let q ← lit [91] s
    let (es, q) ← items p [44] 93 n q
    some (.coll .pathBuild es, q)
  else
    match wordOf w with
    | some e => some (e, s)
    | none =>
      match dotName s with
      | some (m, q) => some (.labelAttribute w (.str m), q)
      | none => some (.label w, s)

def worded (agg : Bytes → Bool) (p : Reader) (n : Nat) (w s : Bytes) : Option (Expr × Bytes) :=
  match lit [40] s with
  | some q => callLike agg p n w q
  | none => plainWord p n w s

/-- An expression without what can follow it. -/
def atom (agg : Bytes → Bool) (p : Reader) (n : Nat) (s : Bytes) : Option (Expr × Bytes) :=
  match lit [34] s with
  | some r => (quoted r).map fun tq => (.const (.str tq.1), tq.2)
  | none =>
    match lit [36] s with
    | some r => dollar p r
    | none =>
      match lit [40] s with
      | some r => paren p n r
      | none =>
        match lit [91] s with
        | some r => bracket p n r
        | none =>
          match lit [123] s with
          | some r => brace p n r
          | none =>
            if IsName (s.takeWhile isWord) then worded agg p n (s.takeWhile isWord) (s.dropWhile isWord)
            else
              match unSign s with
              | some (o, r) => do
                let (e, r) ← p r
                let r ← lit [41] r
                some (.unary o e, r)
              | none => (number s).map fun iq => (.const (.int iq.1), iq.2)

def expr (agg : Bytes → Bool) : Nat → Reader
  | 0, _ => none
  | n + 1, s => (atom agg (expr agg n) n s).bind fun er => post (expr agg n) n er.1 er.2

end Expr
end Nebula
