import Verif.Model.Prim
/-!
# Compression libraries (assumed contract)

`flate2` (zlib) and `zstd` are not modelled; they are parameters with the contract below.
Cites: `src/map_block/node_data.rs:39-55,68-72`, `src/map_block/metadata.rs:106-125,146-150`,
`src/map_block/map_block.rs:29-34,71,144-157`.
-/

namespace MapEditr

/-- What the program uses of the two compression libraries. -/
structure Codec where
  /-- `ZlibEncoder` fed with these bytes, then `finish()`. -/
  zlibEnc : Bytes → Bytes
  /-- `ZlibDecoder` read to its end: the decompressed bytes and `total_in()`; `none` = I/O error. -/
  zlibDec : Bytes → Option (Bytes × Nat)
  /-- `zstd::stream::Encoder` fed with these bytes, then `finish()`. -/
  zstdEnc : Bytes → Bytes
  /-- `zstd::stream::decode_all`. -/
  zstdDec : Bytes → Option Bytes
  /-- `zstd::stream::Decoder::new(..)` followed by one `read_u8()`. -/
  zstdHead : Bytes → Option UInt8
  /-- Number of bytes the `k`-th single `write` call on an encoder accepts of a buffer of `n`
  bytes (`std::io::Write::write` may accept fewer than offered). -/
  accept : Nat → Nat → Nat

/-- The contract assumed of the libraries: decoding what was encoded gives it back and reports the
right number of bytes consumed; reading one byte from a zstd stream agrees with decoding it all. -/
structure Codec.Lawful (c : Codec) : Prop where
  zlib : ∀ x rest, c.zlibDec (c.zlibEnc x ++ rest) = some (x, (c.zlibEnc x).length)
  zstd : ∀ x, c.zstdDec (c.zstdEnc x) = some x
  head : ∀ s b t, c.zstdDec s = some (b :: t) → c.zstdHead s = some b
  nil : ∀ b t, c.zstdDec [] ≠ some (b :: t)

/-- The encoders accept every buffer whole.  (Not guaranteed by `Write`; see C21.) -/
def Codec.FullWrites (c : Codec) : Prop := ∀ k n, n ≤ c.accept k n

/-- How a piece of output is handed to the writer: `write_all` (complete, in as many calls as it
takes; this is what `write_u8`/`write_u16`/... use) or one single `write` call. -/
inductive Chunk
  | all (b : Bytes)
  | once (b : Bytes)
  deriving DecidableEq, Repr

/-- The bytes that reach a `Cursor<Vec<u8>>`, whose `write` accepts everything. -/
def flat : List Chunk → Bytes
  | [] => []
  | .all b :: t => b ++ flat t
  | .once b :: t => b ++ flat t

/-- The bytes that reach an encoder: the `k`-th call of `write` may be short
(the returned count is ignored, `src/map_block/mod.rs:79-90`). -/
def emitFrom (accept : Nat → Nat → Nat) : Nat → List Chunk → Bytes
  | _, [] => []
  | k, .all b :: t => b ++ emitFrom accept k t
  | k, .once b :: t => b.take (accept k b.length) ++ emitFrom accept (k + 1) t

/-- The bytes that reach an encoder of codec `c`. -/
def Codec.emit (c : Codec) (l : List Chunk) : Bytes := emitFrom c.accept 0 l

end MapEditr
