import Verif.Model.Console
/-! Model of /repo/libff/cache.py (the metadata cache, an sqlite3 database), plugin.py (table names) and registry.py (how the cache is used).

An sqlite3 database is a list of tables. Statements and transactions are modelled by their documented effects: a transaction is visible to others as a
whole and only after its commit; without a commit it has no effect. Locking only delays a process, and the retry of `commit` repeats a statement that
has had no effect. `pickle` is a pair of functions of which it is only used that `loads` undoes `dumps`. -/
namespace FF

abbrev Bytes := List Nat

/-- The UTF-8 bytes of a code point. -/
def utf8Char (c : Nat) : Bytes :=
  if c < 0x80 then [c]
  else if c < 0x800 then [0xC0 + c / 64, 0x80 + c % 64]
  else if c < 0x10000 then [0xE0 + c / 4096, 0x80 + c / 64 % 64, 0x80 + c % 64]
  else [0xF0 + c / 262144, 0x80 + c / 4096 % 64, 0x80 + c / 64 % 64, 0x80 + c % 64]

/-- cache.py:139, 156: `path.encode("utf-8", "backslashreplace")`. -/
def cacheKey (path : UStr) : Bytes := (backslashReplace path).flatMap utf8Char

/-- `os.fsencode(path)`, the name of the file in the file system: surrogates stand for undecodable bytes. -/
def fsEncode (path : UStr) : Bytes := path.flatMap (fun c => if 0xDC80 ≤ c ∧ c ≤ 0xDCFF then [c - 0xDC00] else utf8Char c)

/-- A row of a table, cache.py:134. -/
structure Row where
  path : Bytes
  tag : Bytes
  data : Bytes
  deriving DecidableEq

/-- The tables by name. -/
abbrev Db := List (Str × List Row)

/-- The rows of a table. -/
def Db.table (db : Db) (name : Str) : Option (List Row) := (db.find? (fun t => t.1 = name)).map (·.2)

/-! ### Table names -/

/-- plugin.py:68: `f"plugin_{cls.name}_{cls.cache_tag}"`. -/
def sqlTableName (name : Str) (cacheTag : Nat) : Str := "plugin_".toList ++ name ++ '_' :: natStr cacheTag

/-- Upper case letters of ASCII are made lower case; `like` ignores the case of these only. -/
def asciiLower (c : Char) : Char := if 'A' ≤ c ∧ c ≤ 'Z' then Char.ofNat (c.toNat + 32) else c

/-- The operator `like` of sqlite3, pattern first. -/
def like : Str → Str → Bool
  | [], s => s.isEmpty
  | p :: ps, [] => p == '%' && like ps []
  | p :: ps, c :: cs =>
    if p = '%' then like ps (c :: cs) || like (p :: ps) cs
    else if p = '_' then like ps cs
    else asciiLower p == asciiLower c && like ps cs
  termination_by p s => p.length + s.length

/-- `s.rstrip(string.digits)`. -/
def rstripDigits (s : Str) : Str := (s.reverse.dropWhile (fun c => '0' ≤ c ∧ c ≤ '9')).reverse

/-- cache.py:107-129 `init_table`: the table is created if it is missing, the other ones that match the pattern are dropped. -/
def initTable (db : Db) (name : Str) : Db :=
  let tables := (db.map (·.1)).filter (like (rstripDigits name ++ ['%']))
  let created := if name ∈ tables then db else db ++ [(name, [])]
  created.filter (fun t => !(t.1 ∈ tables && t.1 ≠ name))

/-! ### Reading and writing -/

/-- cache.py:136-151 `get`: `none` if there is no such table (an OperationalError), otherwise the data or NOTSET. -/
def Db.get (db : Db) (name : Str) (path : Bytes) (tag : Bytes) : Option (Option Bytes) :=
  (db.table name).map (fun rows => (rows.find? (fun r => r.path = path ∧ r.tag = tag)).map (·.data))

/-- `insert or replace`: `path` is the primary key (cache.py:134). -/
def insertOrReplace (rows : List Row) (r : Row) : List Row := rows.filter (fun x => x.path ≠ r.path) ++ [r]

/-- cache.py:179-182: the transaction for the rows of one plugin. If there is no such table it fails, the process ends with an error. -/
def Db.insertMany (db : Db) (name : Str) (rows : List Row) : Option Db :=
  (db.table name).map (fun _ => db.map (fun t => if t.1 = name then (t.1, rows.foldl insertOrReplace t.2) else t))

/-- The part of the cache that is in the memory of a process: `cached_rows` and `num_cached_rows` (cache.py:75-77), and what is left to do of `commit`. -/
structure CacheMem where
  rows : List (Str × List Row)
  num : Nat
  committing : List (Str × List Row)

/-- cache.py:75-77. -/
def CacheMem.init : CacheMem := ⟨[], 0, []⟩

/-- cache.py:160 `self.cached_rows.setdefault(plugin, []).append(row)`. -/
def addRow (rows : List (Str × List Row)) (name : Str) (r : Row) : List (Str × List Row) :=
  match rows with
  | [] => [(name, [r])]
  | (n, rs) :: rest => if n = name then (n, rs ++ [r]) :: rest else (n, rs) :: addRow rest name r

/-- cache.py:153-168 `set`: `timeUp` tells whether 30 seconds have passed since the last commit. -/
def CacheMem.set (m : CacheMem) (timeUp : Bool) (name : Str) (r : Row) : CacheMem :=
  let rows := addRow m.rows name r
  let num := m.num + 1
  if timeUp || num == 500 then ⟨rows, num, rows⟩ else ⟨rows, num, []⟩

/-- cache.py:170-192: one round of the loop of `commit`, and lines 190-191 after the last one. -/
def CacheMem.flush (m : CacheMem) (db : Db) : Option (CacheMem × Db) :=
  match m.committing with
  | [] => some (m, db)
  | (name, rows) :: rest => (db.insertMany name rows).map (fun db' => (if rest.isEmpty then .init else { m with committing := rest }, db'))

/-- cache.py:83-90 `close`: what is left is committed. -/
def CacheMem.close (m : CacheMem) : CacheMem := if m.num > 0 then { m with committing := m.rows } else m

/-! ### The plugins -/

/-- What is cached: the value of `plugin.cache(entry)`, or the marker NODATA (cache.py:33-35). -/
inductive Obj (V : Type)
  | nodata
  | val (v : V)

/-- `pickle.dumps` and `pickle.loads`. -/
structure Pickle (V : Type) where
  dumps : V → Bytes
  loads : Bytes → V
  loads_dumps : ∀ v, loads (dumps v) = v

/-- A plugin, plugin.py:39-118: `tag` is `get_entry_cache_tag`, `cache` is `none` if NoData is raised, `process` gets `none` if no cache is used. -/
structure CPlugin (E T V D : Type) where
  name : Str
  cacheTag : Nat
  useCache : Bool
  canHandle : E → Bool
  tag : E → T
  cache : E → Option V
  process : E → Option V → D
  empty : D

variable {E T V D : Type}

/-- The name of the table. -/
def CPlugin.table (pl : CPlugin E T V D) : Str := sqlTableName pl.name pl.cacheTag

/-- registry.py:252-256. -/
def CPlugin.object (pl : CPlugin E T V D) (e : E) : Obj V :=
  match pl.cache e with
  | none => .nodata
  | some v => .val v

/-- registry.py:262-263, for a plugin that uses the cache. -/
def CPlugin.finish (pl : CPlugin E T V D) (e : E) : Obj V → D
  | .nodata => pl.empty
  | .val v => pl.process e (some v)

/-- registry.py:234-273 `get_data_from_plugin`: `cached` is what `cache.get` returns (`none` is NOTSET). The data, and what is stored if anything.
The check of types is not modelled. -/
def CPlugin.getData (pl : CPlugin E T V D) (objs : Pickle (Obj V)) (cached : Option Bytes) (e : E) : D × Option (Obj V) :=
  if pl.canHandle e then
    if pl.useCache then
      match cached with
      | some b => (pl.finish e (objs.loads b), none)
      | none => (pl.finish e (pl.object e), some (pl.object e))
    else (pl.process e none, none)
  else (pl.empty, none)

/-- The cache is asked, registry.py:239-242. -/
def CPlugin.asks (pl : CPlugin E T V D) (e : E) : Bool := pl.canHandle e && pl.useCache

/-! ### Histories -/

/-- The database and the memories of the processes. -/
structure CacheSys where
  db : Db
  mem : Nat → CacheMem

/-- The first use of a cache: there are no tables. -/
def CacheSys.init : CacheSys := ⟨[], fun _ => .init⟩

/-- The memory of process `p` changes. -/
def CacheSys.setMem (s : CacheSys) (p : Nat) (m : CacheMem) : CacheSys := { s with mem := fun q => if q = p then m else s.mem q }

/-- What happens: `lookup` is a call of `get_data` with its result, `none` being an exception; `register` sets up a plugin; `flush` is a transaction of a
commit; `close` ends a process in an orderly manner; `crash` ends it at any point, and its number may be used again by another process. -/
inductive Event (E T V D : Type)
  | register (p : Nat) (pl : CPlugin E T V D)
  | lookup (p : Nat) (pl : CPlugin E T V D) (e : E) (timeUp : Bool) (result : Option D)
  | flush (p : Nat)
  | close (p : Nat)
  | crash (p : Nat)

/-- What is read when a plugin needs the cache for an entry, registry.py:239-242. -/
def CPlugin.read (pl : CPlugin E T V D) (abspath : E → UStr) (tags : Pickle T) (db : Db) (e : E) : Option (Option Bytes) :=
  if pl.asks e then db.get pl.table (cacheKey (abspath e)) (tags.dumps (pl.tag e)) else some none

/-- The row that is stored, cache.py:156-160. -/
def CPlugin.row (pl : CPlugin E T V D) (abspath : E → UStr) (tags : Pickle T) (objs : Pickle (Obj V)) (e : E) (o : Obj V) : Row :=
  ⟨cacheKey (abspath e), tags.dumps (pl.tag e), objs.dumps o⟩

/-- The steps of the processes. A process that is committing does nothing else. -/
inductive CacheStep (abspath : E → UStr) (tags : Pickle T) (objs : Pickle (Obj V)) : CacheSys → Event E T V D → CacheSys → Prop
  | register {s : CacheSys} {p : Nat} {pl : CPlugin E T V D} : CacheStep abspath tags objs s (.register p pl) { s with db := initTable s.db pl.table }
  | noTable {s : CacheSys} {p : Nat} {pl : CPlugin E T V D} {e : E} {timeUp : Bool} : (s.mem p).committing = [] → pl.read abspath tags s.db e = none →
      CacheStep abspath tags objs s (.lookup p pl e timeUp none) s
  | lookup {s : CacheSys} {p : Nat} {pl : CPlugin E T V D} {e : E} {timeUp : Bool} {cached : Option Bytes} {d : D} : (s.mem p).committing = [] →
      pl.read abspath tags s.db e = some cached → pl.getData objs cached e = (d, none) →
      CacheStep abspath tags objs s (.lookup p pl e timeUp (some d)) s
  | store {s : CacheSys} {p : Nat} {pl : CPlugin E T V D} {e : E} {timeUp : Bool} {cached : Option Bytes} {d : D} {o : Obj V} : (s.mem p).committing = [] →
      pl.read abspath tags s.db e = some cached → pl.getData objs cached e = (d, some o) →
      CacheStep abspath tags objs s (.lookup p pl e timeUp (some d))
        (s.setMem p ((s.mem p).set timeUp pl.table (pl.row abspath tags objs e o)))
  | flush {s : CacheSys} {p : Nat} {m : CacheMem} {db : Db} : (s.mem p).flush s.db = some (m, db) →
      CacheStep abspath tags objs s (.flush p) ({ s with db := db }.setMem p m)
  | close {s : CacheSys} {p : Nat} : (s.mem p).committing = [] → CacheStep abspath tags objs s (.close p) (s.setMem p (s.mem p).close)
  | crash {s : CacheSys} {p : Nat} : CacheStep abspath tags objs s (.crash p) (s.setMem p .init)

/-- Histories. -/
inductive CacheRun (abspath : E → UStr) (tags : Pickle T) (objs : Pickle (Obj V)) : CacheSys → List (Event E T V D) → CacheSys → Prop
  | nil {s : CacheSys} : CacheRun abspath tags objs s [] s
  | snoc {s t u : CacheSys} {es : List (Event E T V D)} {e : Event E T V D} : CacheRun abspath tags objs s es t → CacheStep abspath tags objs t e u →
      CacheRun abspath tags objs s (es ++ [e]) u

/-! ### Cleaning -/

/-- cache.py:197-200: the statements `delete from table where path = ?` that are executed, in this order. -/
def cleanDeletes (pathExists : Bytes → Bool) (db : Db) : List (Str × Bytes) :=
  db.flatMap (fun t => (t.2.filter (fun r => !pathExists r.path)).map (fun r => (t.1, r.path)))

/-- The effect of a statement `delete`. -/
def deleteRow (db : Db) (d : Str × Bytes) : Db := db.map (fun t => if t.1 = d.1 then (t.1, t.2.filter (fun r => r.path ≠ d.2)) else t)

/-- A connection of Python's sqlite3 module: the database in the file, the database as this connection sees it, and whether a transaction is open. -/
structure Conn where
  file : Db
  work : Db
  inTransaction : Bool

/-- `conn.execute("delete …")`: a transaction is begun before the statement if there is none. -/
def Conn.delete (c : Conn) (d : Str × Bytes) : Conn := { c with work := deleteRow c.work d, inTransaction := true }

/-- `conn.execute("vacuum")`: since Python 3.6 an open transaction is not committed before such a statement, and `vacuum` fails in a transaction
(OperationalError). -/
def Conn.vacuum (c : Conn) : Option Conn := if c.inTransaction then none else some c

/-- `conn.commit()`. -/
def Conn.commit (c : Conn) : Conn := ⟨c.work, c.work, false⟩

/-- cache.py:194-203 `clean`: the database that is left in the file, and whether the function returns. A transaction that is not committed has no effect
on the file. -/
def cleanCache (pathExists : Bytes → Bool) (db : Db) : Db × Bool :=
  let conn := (cleanDeletes pathExists db).foldl Conn.delete ⟨db, db, false⟩
  match conn.vacuum with
  | none => (conn.file, false)
  | some conn => (conn.commit.file, true)

/-- The same up to the `vacuum`: the database as this connection sees it. -/
def cleanWork (pathExists : Bytes → Bool) (db : Db) : Db := ((cleanDeletes pathExists db).foldl Conn.delete ⟨db, db, false⟩).work

end FF
