import Verif.Model.Codec
/-!
# Reading and writing primitives

Models `src/map_block/mod.rs:50-90` and the parts of `byteorder` it uses.  A reader takes the
bytes not yet read and returns a value and the rest; every I/O error becomes `BadData`
(`src/map_block/mod.rs:36-40`).
-/

namespace MapEditr

/-- A reader on `Cursor<&[u8]>`. -/
abbrev P (α : Type) := Bytes → Res (α × Bytes)

/-- `MapBlockError::BadData`. -/
def badData : Res α := .error (.err .badData)

/-- `src.read_u8()?`. -/
def rdU8 : P Nat
  | [] => badData
  | b :: t => .ok (b.toNat, t)

/-- `src.read_u16::<BigEndian>()?`. -/
def rdU16 : P Nat := fun s => do
  let (a, s) ← rdU8 s
  let (b, s) ← rdU8 s
  return (a * 256 + b, s)

/-- `src.read_u32::<BigEndian>()?`. -/
def rdU32 : P Nat := fun s => do
  let (a, s) ← rdU16 s
  let (b, s) ← rdU16 s
  return (a * 65536 + b, s)

/-- `src.read_i32::<BigEndian>()?` (two's complement). -/
def rdI32 : P Int := fun s => do
  let (a, s) ← rdU32 s
  return (if a < 2147483648 then (a : Int) else (a : Int) - 4294967296, s)

/-- `try_read_n`, `src/map_block/mod.rs:50-64`; also `read_exact` into a buffer of `n` bytes. -/
def rdN (n : Nat) : P Bytes := fun s =>
  if s.length < n then badData else .ok (s.take n, s.drop n)

/-- `read_string16`, `src/map_block/mod.rs:67-70`. -/
def rdStr16 : P Bytes := fun s => do
  let (n, s) ← rdU16 s
  rdN n s

/-- `read_string32`, `src/map_block/mod.rs:73-76`. -/
def rdStr32 : P Bytes := fun s => do
  let (n, s) ← rdU32 s
  rdN n s

/-- `for _ in 0..n { ... }` around a reader updating a local variable. -/
def loopP (f : β → P β) : Nat → β → P β
  | 0, b, s => .ok (b, s)
  | n + 1, b, s => do
    let (b, s) ← f b s
    loopP f n b s

/-- One byte of a `write_*::<BigEndian>`. -/
def byte (n : Nat) : UInt8 := UInt8.ofNat n

/-- `write_u8(n)` for an already truncated `n`. -/
def encU8 (n : Nat) : Bytes := [byte n]
/-- `write_u16::<BigEndian>(n as u16)`: the cast keeps the low 16 bits. -/
def encU16 (n : Nat) : Bytes := [byte (n / 256), byte n]
/-- `write_u32::<BigEndian>(n as u32)`: the cast keeps the low 32 bits. -/
def encU32 (n : Nat) : Bytes := [byte (n / 16777216), byte (n / 65536), byte (n / 256), byte n]
/-- `write_i32::<BigEndian>(n)` (two's complement). -/
def encI32 (n : Int) : Bytes := encU32 (n % 4294967296).toNat

/-- Writers produce chunks, or panic. -/
abbrev Wr := Res (List Chunk)

/-- `dst.write_u8(n).unwrap()` and friends. -/
def wrAll (b : Bytes) : List Chunk := [.all b]

/-- `write_string16`, `src/map_block/mod.rs:79-83`: panics if the length does not fit, and uses a
single `write` for the data. -/
def wrStr16 (d : Bytes) : Wr :=
  if d.length < 65536 then .ok [.all (encU16 d.length), .once d]
  else .error (.panic "write_string16: too long")

/-- `write_string32`, `src/map_block/mod.rs:86-90`. -/
def wrStr32 (d : Bytes) : Wr :=
  if d.length < 4294967296 then .ok [.all (encU32 d.length), .once d]
  else .error (.panic "write_string32: too long")

/-- `for x in l { f(x) }` around a writer. -/
def wrEach (f : α → Wr) : List α → Wr
  | [] => .ok []
  | x :: t => do
    let a ← f x
    let b ← wrEach f t
    return a ++ b

/-- `TwoWaySearcher::new(pat).search_in(s)` of the `memmem` crate: the first position at which
`pat` occurs.  Rendered by naive search. -/
def searchIn (pat : Bytes) : Bytes → Option Nat
  | [] => if pat.isEmpty then some 0 else none
  | b :: t => if pat.isPrefixOf (b :: t) then some 0 else (searchIn pat t).map (· + 1)

/-- ASCII text as bytes (`b"..."` literals). -/
def ascii (s : String) : Bytes := s.toList.map fun ch => UInt8.ofNat ch.toNat

end MapEditr
