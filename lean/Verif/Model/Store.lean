import Verif.Model.KV
/-
Model of `storage/kv/leveldbkv/leveldbkv.go`, the implementation of the `kv.DB` interface (`storage/kv/kv.go`) on top of LevelDB.
The LevelDB library itself is not part of the repository: `LevelDB` below states what it promises (a log of atomic batches; a
write with `Sync` is on the disk when it returns; what is found after a crash is a beginning of the log that contains everything
synced; iterators run over a snapshot in key order). Errors of the disk are not modelled.
-/
namespace Coniks

/-- storage/kv/kv.go:41-45 `Batch`: one entry of a batch. -/
inductive StoreOp where
  | put (key value : Bytes)
  | del (key : Bytes)
deriving DecidableEq

/-- The LevelDB library: the batches written so far, how many of them are certainly on the disk, and whether it was closed. -/
structure LevelDB where
  log : List (List StoreOp)
  synced : Nat
  closed : Bool
deriving DecidableEq

/-- What the operations of the interface can return besides a value (kv.go:28-38): `ErrNotFound`, LevelDB's `ErrClosed`, and the
error of leveldbkv.go:60-63 for a batch of another implementation. -/
inductive StoreErr where
  | notFound
  | closed
  | wrongBatch
deriving DecidableEq

/-- `bytes.Compare(a, b) < 0`, the order LevelDB uses. -/
def bytesLt : Bytes → Bytes → Bool
  | _, [] => false
  | [], _ :: _ => true
  | x :: a, y :: b => if x < y then true else if x = y then bytesLt a b else false

/-- LevelDB's table in key order: set a key. -/
def tablePut (k v : Bytes) : List (Bytes × Bytes) → List (Bytes × Bytes)
  | [] => [(k, v)]
  | (k', v') :: t =>
    if bytesLt k k' then (k, v) :: (k', v') :: t
    else if k = k' then (k, v) :: t
    else (k', v') :: tablePut k v t

/-- LevelDB's table in key order: remove a key. -/
def tableDel (k : Bytes) (t : List (Bytes × Bytes)) : List (Bytes × Bytes) := t.filter fun e => decide (e.1 ≠ k)

/-- LevelDB: one entry of a batch, applied to the table. -/
def tableStep (t : List (Bytes × Bytes)) : StoreOp → List (Bytes × Bytes)
  | .put k v => tablePut k v t
  | .del k => tableDel k t

/-- LevelDB: the table is the log, applied in order. -/
def LevelDB.table (db : LevelDB) : List (Bytes × Bytes) := db.log.flatten.foldl tableStep []

/-- LevelDB `Get`. -/
def LevelDB.get (db : LevelDB) (key : Bytes) : Except StoreErr Bytes :=
  if db.closed then .error .closed
  else
    match db.table.find? fun e => e.1 == key with
    | some e => .ok e.2
    | none => .error .notFound

/-- LevelDB `Write`; `Put` and `Delete` are batches of one. A write with `sync` brings the log to the disk, up to itself. -/
def LevelDB.write (db : LevelDB) (b : List StoreOp) (sync : Bool) : LevelDB × Except StoreErr Unit :=
  if db.closed then (db, .error .closed)
  else ({ db with log := db.log ++ [b], synced := if sync then db.log.length + 1 else db.synced }, .ok ())

/-- LevelDB: what is found when the database is opened after a crash that left `n` batches of the log on the disk. -/
def LevelDB.recover (db : LevelDB) (n : Nat) : Option LevelDB :=
  if db.synced ≤ n ∧ n ≤ db.log.length then some { log := db.log.take n, synced := n, closed := false } else none

/-- LevelDB: a slice of the table; no limit is the end. -/
def LevelDB.slice (db : LevelDB) (start : Bytes) (limit : Option Bytes) : List (Bytes × Bytes) :=
  db.table.filter fun e => !bytesLt e.1 start && (match limit with | none => true | some l => bytesLt e.1 l)

/-! ### The wrapper -/

/-- storage/kv/leveldbkv/leveldbkv.go:43-45 `Get`. -/
def storeGet (db : LevelDB) (key : Bytes) : Except StoreErr Bytes := db.get key

/-- leveldbkv.go:47-49 `Put`: `Sync` is set. -/
def storePut (db : LevelDB) (key value : Bytes) : LevelDB × Except StoreErr Unit := db.write [.put key value] true

/-- leveldbkv.go:51-53 `Delete`: `Sync` is set. -/
def storeDelete (db : LevelDB) (key : Bytes) : LevelDB × Except StoreErr Unit := db.write [.del key] true

/-- leveldbkv.go:55-57 `NewBatch`, and kv.go:41-45: `Reset`, `Put`, `Delete` of a batch (LevelDB's own type). -/
inductive BatchCall where
  | reset
  | put (key value : Bytes)
  | del (key : Bytes)
deriving DecidableEq

/-- See `BatchCall`: what a batch holds after some calls. -/
def batchAfter (calls : List BatchCall) : List StoreOp :=
  calls.foldl (fun b c => match c with
    | .reset => []
    | .put k v => b ++ [.put k v]
    | .del k => b ++ [.del k]) []

/-- leveldbkv.go:59-65 `Write`; `none`: a `kv.Batch` that is not a `*leveldb.Batch`. `Sync` is set. -/
def storeWrite (db : LevelDB) (b : Option (List StoreOp)) : LevelDB × Except StoreErr Unit :=
  match b with
  | none => (db, .error .wrongBatch)
  | some b => db.write b true

/-- kv.go:50-58 `Iterator` as LevelDB implements it: the entries of the snapshot, and where it stands. -/
inductive IterPos where
  | before
  | at_ (i : Nat)
  | after
deriving DecidableEq

/-- See `IterPos`. -/
structure StoreIter where
  items : List (Bytes × Bytes)
  pos : IterPos
deriving DecidableEq

/-- leveldbkv.go:67-72 `NewIterator`; a nil range is everything. (On a closed database LevelDB returns an iterator with an error and
no entries.) -/
def storeIter (db : LevelDB) (rg : Option KVRange) : StoreIter :=
  if db.closed then { items := [], pos := .before }
  else
    match rg with
    | none => { items := db.table, pos := .before }
    | some r => { items := db.slice r.start r.limit, pos := .before }

/-- kv.go:50-58: `First`. -/
def StoreIter.first (it : StoreIter) : StoreIter × Bool :=
  if it.items.length = 0 then ({ it with pos := .after }, false) else ({ it with pos := .at_ 0 }, true)

/-- kv.go:50-58: `Last`. -/
def StoreIter.last (it : StoreIter) : StoreIter × Bool :=
  if it.items.length = 0 then ({ it with pos := .before }, false) else ({ it with pos := .at_ (it.items.length - 1) }, true)

/-- kv.go:50-58: `Next`. -/
def StoreIter.next (it : StoreIter) : StoreIter × Bool :=
  match it.pos with
  | .before => it.first
  | .at_ i => if i + 1 < it.items.length then ({ it with pos := .at_ (i + 1) }, true) else ({ it with pos := .after }, false)
  | .after => (it, false)

/-- kv.go:50-58: `Key` and `Value` (nil when the iterator stands on no entry). -/
def StoreIter.entry (it : StoreIter) : Option (Bytes × Bytes) :=
  match it.pos with
  | .at_ i => it.items[i]?
  | _ => none

/-- leveldbkv.go:74-76 `Close`. -/
def storeClose (db : LevelDB) : LevelDB × Except StoreErr Unit :=
  if db.closed then (db, .error .closed) else ({ db with closed := true }, .ok ())

/-! ### Histories -/

/-- One thing that happens to a database: a call that returns; a crash of the machine, possibly in the middle of a call that
writes (`during`), after which `OpenDB` (leveldbkv.go:29-36) finds `left` batches; closing and opening again. -/
inductive StoreEv where
  | get (key : Bytes)
  | put (key value : Bytes)
  | delete (key : Bytes)
  | write (b : Option (List StoreOp))
  | close
  | reopen
  | crash (during : Option (List StoreOp)) (left : Nat)
deriving DecidableEq

/-- The database after one event; `none`: this cannot happen (a crash cannot leave fewer batches than were synced, and a database
that is not closed cannot be opened again: LevelDB locks the directory). A crash in the middle of a write leaves the write in the
log but not yet synced. -/
def storeStep (db : LevelDB) : StoreEv → Option LevelDB
  | .get _ => some db
  | .put k v => some (storePut db k v).1
  | .delete k => some (storeDelete db k).1
  | .write b => some (storeWrite db b).1
  | .close => some (storeClose db).1
  | .reopen => if db.closed then db.recover db.log.length else none
  | .crash none n => db.recover n
  | .crash (some b) n => if db.closed then none else { db with log := db.log ++ [b] : LevelDB }.recover n

/-- A new database (leveldbkv.go:29-36 `OpenDB` of an empty directory). -/
def storeEmpty : LevelDB := { log := [], synced := 0, closed := false }

/-- The database after a history. -/
def storeAfter : LevelDB → List StoreEv → Option LevelDB
  | db, [] => some db
  | db, e :: es => (storeStep db e).bind fun db' => storeAfter db' es

end Coniks
