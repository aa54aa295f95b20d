import Verif.Model.Cmd

/-! Model of the text of an INSERT query: /repo/src/lib.rs. -/

namespace CH

/-- `column_name_to_string`, /repo/src/lib.rs:610-621. `numeric` is `char::is_numeric` of the standard library (Unicode general
categories Nd, Nl, No). -/
def columnNameToString (numeric : Char → Bool) (name : Str) : Out Str :=
  if name.all numeric then .ok name
  else if name.any (· = '`') then .err (.other "Column name shouldn't contains backticks.")
  else .ok ('`' :: name ++ ['`'])

/-- `names.join(", ")`, /repo/src/lib.rs:526. -/
def joinCommaSpace : List Str → Str
  | [] => []
  | [s] => s
  | s :: rest => s ++ ", ".toList ++ joinCommaSpace rest

/-- The loop over the columns, /repo/src/lib.rs:522-525. -/
def quoteAll (numeric : Char → Bool) : List Str → Out (List Str)
  | [] => .ok []
  | n :: ns => do
    let q ← columnNameToString numeric n
    let qs ← quoteAll numeric ns
    pure (q :: qs)

/-- The SQL text built by `make_query`, /repo/src/lib.rs:518-528. -/
def insertSql (numeric : Char → Bool) (table : Str) (names : List Str) : Out Str := do
  let qs ← quoteAll numeric names
  pure ("INSERT INTO ".toList ++ table ++ " (".toList ++ joinCommaSpace qs ++ ") VALUES".toList)

/-- `make_query`, /repo/src/lib.rs:518-528. -/
def makeQuery (numeric : Char → Bool) (table : Query) (b : Block) : Out Query := do
  let sql ← insertSql numeric table.sql.toList (b.columns.map fun c => c.name.toList)
  pure (table.mapSql fun _ => String.ofList sql)

/-- Outcome of `tokio::time::timeout(limit, future)`, /repo/src/lib.rs:636-642: the future is polled first, so an operation that
needs no waiting (`needs = 0`) always completes; otherwise it is cut off when the limit passes before it is done. Times in
milliseconds. -/
def completesWithin (limit needs : Nat) : Bool := needs ≤ limit

/-- The limit of `execute`, /repo/src/lib.rs:395-397. -/
def executeLimit (o : Options) : Nat := o.executeTimeout.getD 0

/-- The limit of `insert`, /repo/src/lib.rs:450-452. -/
def insertLimit (o : Options) : Nat := o.insertTimeout.getD 0

end CH
