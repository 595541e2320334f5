import Verif.Model.World
/-!
# Querying block keys, the block cache, small helpers

Models `src/utils.rs`.
-/

namespace MapEditr

/-- `to_bytes`, `src/utils.rs:117-119`: the UTF-8 bytes of a string. -/
def toBytes (s : String) : Bytes := s.toUTF8.data.toList

/-- `to_slice`, `src/utils.rs:122-127`. -/
def toSlice (o : Option Bytes) : List Bytes := o.toList

/-- The search pattern for a name: 16-bit length and the bytes, `src/utils.rs:26-31`
(`s.len() as u16` keeps the low 16 bits, as does `encU16`). -/
def string16 (s : Bytes) : Bytes := encU16 s.length ++ s

/-- `block_area`, `src/utils.rs:39-45`. -/
def queryArea (area : Option Area) (invert includePartial : Bool) : Option Area :=
  area.bind fun a =>
    if invert == includePartial then a.toContainedBlockArea else some a.toTouchingBlockArea

/-- Whether the loop body of `query_keys` reaches `keys.push(key)`, `src/utils.rs:51-69`. -/
def queryKeeps (pats : List Bytes) (blockArea : Option Area) (emptyArea invert : Bool)
    (key : Int) (data : Bytes) : Bool :=
  let skipArea := !emptyArea &&
    (match blockArea with
     | some a => a.contains (Vec3.fromBlockKey key) == invert
     | none => false)
  let skipName :=
    match data with
    | v :: _ => decide (v.toNat ≤ 28) && !pats.isEmpty && !(pats.any fun s => (searchIn s data).isSome)
    | [] => false
  !skipArea && !skipName

/-- Loop body of `query_keys`, `src/utils.rs:51-75`; `i` is the row number. -/
def queryStep (keep : Int → Bytes → Bool) (keys : List Int) (row : (Int × Bytes) × Nat) :
    Run (List Int) := do
  if keep row.1.1 row.1.2 then
    let keys := keys ++ [row.1.1]
    if row.2 &&& 1023 == 0 then setTotal keys.length
    return keys
  else return keys

/-- `query_keys`, `src/utils.rs:14-82`. -/
def queryKeys (env : Env) (i : DbId) (searchStrs : List Bytes) (area : Option Area)
    (invert includePartial : Bool) : Run (List Int) := do
  setState .querying
  let pats := searchStrs.map string16
  let blockArea := queryArea area invert includePartial
  let emptyArea := area.isSome && blockArea.isNone
  let keys ←
    if !emptyArea || invert then do
      let rows ← iterRows env i
      rows.zipIdx.foldlM (queryStep (queryKeeps pats blockArea emptyArea invert)) []
    else pure []
  setTotal keys.length
  setState .ignore
  return keys

/-- `CacheMap`, `src/utils.rs:85-89`; the hash map is only used by key, so any association list
with unique keys represents it. -/
structure CacheMap (β : Type) where
  queue : List Int
  map : List (Int × β)
  cap : Nat

namespace CacheMap

/-- `CacheMap::with_capacity`, `src/utils.rs:92-98`. -/
def withCapacity (cap : Nat) : CacheMap β := ⟨[], [], cap⟩

/-- `HashMap::remove`. -/
def remove (m : List (Int × β)) (k : Int) : List (Int × β) := m.filter fun e => !(e.1 == k)

/-- `CacheMap::insert`, `src/utils.rs:100-108`. -/
def insert (c : CacheMap β) (k : Int) (v : β) : CacheMap β :=
  let (queue, map) :=
    if c.queue.length ≥ c.cap then
      match c.queue with
      | oldest :: rest => (rest, remove c.map oldest)
      | [] => (c.queue, c.map)
    else (c.queue, c.map)
  { c with queue := queue ++ [k], map := (k, v) :: remove map k }

/-- `CacheMap::get`, `src/utils.rs:110-113`. -/
def get (c : CacheMap β) (k : Int) : Option β := (c.map.find? fun e => e.1 == k).map (·.2)

end CacheMap

/-- `{}` of an unsigned integer: its decimal digits. -/
def dec (n : Nat) : List Char := Nat.toDigits 10 n

/-- `{:02}`. -/
def pad2 (n : Nat) : List Char := if n < 10 then '0' :: dec n else dec n

/-- `fmt_duration`, `src/utils.rs:152-159`, of a duration of `s` whole seconds. -/
def fmtDuration (s : Nat) : List Char :=
  if s < 3600 then pad2 (s / 60 % 60) ++ [':'] ++ pad2 (s % 60)
  else dec (s / 3600) ++ [':'] ++ pad2 (s / 60 % 60) ++ [':'] ++ pad2 (s % 60)

end MapEditr
