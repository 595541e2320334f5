import Verif.Spec.Format
/-!
# Which byte strings represent which block

Follows `doc/world_format.txt` of Minetest, as far as the program supports it (versions 25..29).
Trailing bytes are allowed where the program ignores them.
-/

namespace MapEditr.Spec

/-- Decompressed version 29 data. -/
def Body29 (d : Bytes) (b : MapBlock) : Prop :=
  ∃ names : List (Nat × Bytes), ∃ metas : RawMetaList, ∃ junk,
    b.flags < 256 ∧ b.lighting < 65536 ∧ b.timestamp < 4294967296 ∧ NamesFit names ∧
    (b.contentWidth = 2 ∧ b.paramsWidth = 2) ∧ NodesFit b.nd ∧ metas.Fits ∧ ObjsFit b.objects ∧
    TimersFit b.timers ∧ b.nimap = namesValue names ∧ b.metas = metas.value ∧
    d = UInt8.ofNat b.flags :: (be16 b.lighting ++ (be32 b.timestamp ++ (namesBytes names ++
      (2 :: 2 :: (nodesBytes b.nd ++ (metas.bytes ++ (objsBytes b.objects ++
      (timersBytes b.timers ++ junk))))))))

/-- Version 25..28 data after the version byte; `z` starts with the two zlib streams. -/
def Body28 (c : Codec) (d : Bytes) (b : MapBlock) : Prop :=
  ∃ names : List (Nat × Bytes), ∃ metas : RawMetaList, ∃ z n1 n2 junk junk',
    b.flags < 256 ∧ b.lighting < 65536 ∧ (b.version < 27 → b.lighting = 65535) ∧
    b.timestamp < 4294967296 ∧ NamesFit names ∧
    (b.contentWidth = 2 ∧ b.paramsWidth = 2) ∧ NodesFit b.nd ∧ metas.Fits ∧ ObjsFit b.objects ∧
    TimersFit b.timers ∧ b.nimap = namesValue names ∧ b.metas = metas.value ∧
    d = UInt8.ofNat b.flags :: ((if 27 ≤ b.version then be16 b.lighting else []) ++
      (2 :: 2 :: z)) ∧
    c.zlibDec z = some (nodesBytes b.nd, n1) ∧
    c.zlibDec (z.drop n1) = some (metas.bytes ++ junk', n2) ∧
    (z.drop n1).drop n2 = objsBytes b.objects ++ (be32 b.timestamp ++ (namesBytes names ++
      (timersBytes b.timers ++ junk)))

/-- The bytes `s` represent the block `b`. -/
def Represents (c : Codec) (s : Bytes) (b : MapBlock) : Prop :=
  (b.version = 29 ∧ ∃ z d, s = 29 :: z ∧ c.zstdDec z = some d ∧ Body29 d b) ∨
  ((25 ≤ b.version ∧ b.version ≤ 28) ∧ ∃ d, s = UInt8.ofNat b.version :: d ∧ Body28 c d b)

end MapEditr.Spec
