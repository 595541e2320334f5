import Verif.Model.MapBlock
import Verif.Model.Memory
/-!
# The project's tests on whole mapblocks, run on the model

`src/map_block/map_block.rs:280-426` for the files `testing/mapblock_v28.bin` and `mapblock_v25.bin`.
Not proofs: the checks (`#guard`) are evaluated when this file is built.  What zlib makes of the four
compressed streams was computed with another zlib and is given here as data; what is saved again is
checked against a codec that does not compress.  The v29 file needs a zstd decoder and is left out.
-/

namespace MapEditr.RepoTests

/-- Runs of equal values. -/
def runs (l : List (Nat × Nat)) : List Nat := l.flatMap fun x => List.replicate x.2 x.1

/-- The bytes of the node data: contents, param1, param2. -/
def plain (ids p1 p2 : List (Nat × Nat)) : Bytes :=
  bytesOfU16s (runs ids) ++ (runs p1).map UInt8.ofNat ++ (runs p2).map UInt8.ofNat

/-- A codec that knows the given streams and saves with a length and no compression. -/
def knows (l : List (Bytes × Bytes)) : Codec where
  zlibEnc := fun b => 0 :: encU32 b.length ++ b
  zlibDec := fun s =>
    match l.find? (fun e => e.1.isPrefixOf s) with
    | some e => some (e.2, e.1.length)
    | none => match s with
      | 0 :: a :: b :: c :: d :: t =>
        let n := a.toNat * 16777216 + b.toNat * 65536 + c.toNat * 256 + d.toNat
        some (t.take n, n + 5)
      | _ => none
  zstdEnc := id
  zstdDec := fun _ => none
  zstdHead := fun _ => none
  accept := fun _ n => n

/-- The block and the block after saving and loading it again. -/
def twice (c : Codec) (s : Bytes) : Res (List MapBlock) := do
  let b ← deserialize c s
  let b' ← deserialize c (← serialize c (fun _ v => v) b)
  return [b, b']

/-- All blocks pass. -/
def passes (c : Codec) (s : Bytes) (f : MapBlock → Bool) : Bool :=
  match twice c s with
  | .ok l => l.all f
  | .error _ => false

/-- `testing/mapblock_v28.bin`. -/
def file28 : Bytes :=
  [28, 3, 241, 196, 2, 2, 120, 94, 237, 214, 57, 14, 128, 48, 12, 4, 64, 35, 81, 39, 252, 255, 181, 20, 136,
  83, 72, 161, 197, 30, 83, 17, 170, 157, 77, 34, 34, 98, 242, 16, 32, 64, 128, 0, 1, 2, 4, 8, 16, 32, 64,
  128, 0, 1, 2, 4, 8, 16, 32, 64, 128, 0, 1, 2, 4, 8, 16, 32, 64, 128, 0, 1, 2, 191, 22, 136, 102, 238, 2,
  253, 54, 173, 101, 123, 31, 245, 157, 45, 239, 51, 143, 252, 175, 2, 125, 95, 173, 217, 255, 17, 63,
  221, 121, 255, 184, 255, 139, 247, 127, 158, 137, 154, 251, 95, 254, 218, 247, 159, 254, 245, 191, 9,
  184, 255, 174, 2, 249, 60, 252, 255, 142, 4, 74, 125, 159, 195, 16, 32, 64, 128, 0, 1, 2, 4, 8, 16, 32,
  64, 128, 0, 1, 2, 201, 5, 150, 21, 157, 130, 250, 206, 120, 94, 99, 0, 0, 0, 1, 0, 1, 0, 0, 2, 7, 0, 1,
  56, 128, 0, 1, 95, 144, 0, 1, 212, 192, 0, 62, 1, 0, 23, 116, 101, 115, 116, 95, 109, 111, 100, 58, 110,
  97, 109, 101, 116, 97, 103, 95, 101, 110, 116, 105, 116, 121, 0, 0, 0, 5, 53, 55, 56, 51, 51, 0, 10, 0,
  0, 0, 0, 0, 0, 0, 0, 0, 0, 0, 0, 0, 0, 0, 0, 1, 0, 0, 0, 0, 0, 0, 0, 0, 7, 0, 0, 39, 16, 0, 0, 78, 32,
  0, 0, 78, 32, 0, 81, 1, 0, 21, 116, 101, 115, 116, 95, 109, 111, 100, 58, 99, 111, 108, 111, 114, 95,
  101, 110, 116, 105, 116, 121, 0, 0, 0, 26, 114, 101, 116, 117, 114, 110, 32, 123, 91, 34, 99, 111, 108,
  111, 114, 95, 110, 117, 109, 34, 93, 32, 61, 32, 49, 125, 0, 10, 0, 0, 0, 0, 0, 0, 0, 0, 0, 0, 0, 0, 0,
  0, 0, 0, 1, 0, 0, 0, 0, 0, 0, 0, 0, 0, 0, 10, 196, 0, 0, 2, 0, 0, 0, 14, 116, 101, 115, 116, 95, 109,
  111, 100, 58, 116, 105, 109, 101, 114, 0, 1, 0, 3, 97, 105, 114, 10, 0, 2, 15, 255, 0, 0, 5, 57, 0, 0,
  2, 88, 0, 0, 0, 0, 5, 57, 0, 0, 0, 200]

/-- Its node data. -/
def nodes28 : Bytes := plain
  [(0, 1), (1, 4094), (0, 1)]
  [(14, 273), (15, 14), (14, 2), (15, 14), (14, 2), (15, 14), (14, 2), (15, 14), (14, 2), (15, 14), (14, 2),
  (15, 14), (14, 2), (15, 14), (14, 2), (15, 14), (14, 2), (15, 14), (14, 2), (15, 14), (14, 2), (15, 14),
  (14, 2), (15, 14), (14, 2), (15, 14), (14, 2), (15, 14), (14, 34), (15, 14), (14, 2), (15, 14), (14, 2),
  (15, 14), (14, 2), (15, 14), (14, 2), (15, 14), (14, 2), (15, 14), (14, 2), (15, 14), (14, 2), (15, 14),
  (14, 2), (15, 14), (14, 2), (15, 14), (14, 2), (15, 14), (14, 2), (15, 14), (14, 2), (15, 14), (14, 2),
  (15, 14), (14, 34), (15, 14), (14, 2), (15, 14), (14, 2), (15, 14), (14, 2), (15, 14), (14, 2), (15,
  14), (14, 2), (15, 14), (14, 2), (15, 14), (14, 2), (15, 14), (14, 2), (15, 14), (14, 2), (15, 14), (14,
  2), (15, 14), (14, 2), (15, 14), (14, 2), (15, 14), (14, 2), (15, 14), (14, 25), (15, 1), (14, 8), (15,
  14), (14, 2), (15, 14), (14, 2), (15, 14), (14, 2), (15, 14), (14, 2), (15, 14), (14, 2), (15, 14), (14,
  2), (15, 14), (14, 2), (15, 14), (14, 2), (15, 14), (14, 2), (15, 14), (14, 2), (15, 14), (14, 2), (15,
  14), (14, 2), (15, 14), (14, 2), (15, 14), (14, 24), (15, 1), (14, 9), (15, 14), (14, 2), (15, 14), (14,
  2), (15, 14), (14, 2), (15, 14), (14, 2), (15, 14), (14, 2), (15, 14), (14, 2), (15, 14), (14, 2), (15,
  14), (14, 2), (15, 14), (14, 2), (15, 14), (14, 2), (15, 14), (14, 2), (15, 14), (14, 2), (15, 14), (14,
  2), (15, 14), (14, 25), (15, 1), (14, 8), (15, 14), (14, 2), (15, 14), (14, 2), (15, 14), (14, 2), (15,
  14), (14, 2), (15, 14), (14, 2), (15, 14), (14, 2), (15, 14), (14, 2), (15, 14), (14, 2), (15, 14), (14,
  2), (15, 14), (14, 2), (15, 14), (14, 2), (15, 14), (14, 2), (15, 14), (14, 2), (15, 14), (14, 34), (15,
  14), (14, 2), (15, 14), (14, 2), (15, 14), (14, 2), (15, 14), (14, 2), (15, 14), (14, 2), (15, 14), (14,
  2), (15, 14), (14, 2), (15, 14), (14, 2), (15, 14), (14, 2), (15, 14), (14, 2), (15, 14), (14, 2), (15,
  14), (14, 2), (15, 14), (14, 2), (15, 14), (14, 34), (15, 14), (14, 2), (15, 14), (14, 2), (15, 14),
  (14, 2), (15, 14), (14, 2), (15, 14), (14, 2), (15, 14), (14, 2), (15, 14), (14, 2), (15, 14), (14, 2),
  (15, 14), (14, 2), (15, 14), (14, 2), (15, 14), (14, 2), (15, 14), (14, 2), (15, 14), (14, 2), (15, 14),
  (14, 34), (15, 14), (14, 2), (15, 14), (14, 2), (15, 14), (14, 2), (15, 14), (14, 2), (15, 14), (14, 2),
  (15, 14), (14, 2), (15, 14), (14, 2), (15, 14), (14, 2), (15, 14), (14, 2), (15, 14), (14, 2), (15, 14),
  (14, 2), (15, 14), (14, 2), (15, 14), (14, 2), (15, 14), (14, 34), (15, 14), (14, 2), (15, 14), (14, 2),
  (15, 14), (14, 2), (15, 14), (14, 2), (15, 14), (14, 2), (15, 14), (14, 2), (15, 14), (14, 2), (15, 14),
  (14, 2), (15, 14), (14, 2), (15, 14), (14, 2), (15, 14), (14, 2), (15, 14), (14, 2), (15, 14), (14, 2),
  (15, 14), (14, 34), (15, 14), (14, 2), (15, 14), (14, 2), (15, 14), (14, 2), (15, 14), (14, 2), (15,
  14), (14, 2), (15, 14), (14, 2), (15, 14), (14, 2), (15, 14), (14, 2), (15, 14), (14, 2), (15, 14), (14,
  2), (15, 14), (14, 2), (15, 14), (14, 2), (15, 14), (14, 2), (15, 14), (14, 34), (15, 14), (14, 2), (15,
  14), (14, 2), (15, 14), (14, 2), (15, 14), (14, 2), (15, 14), (14, 2), (15, 14), (14, 2), (15, 14), (14,
  2), (15, 14), (14, 2), (15, 14), (14, 2), (15, 14), (14, 2), (15, 14), (14, 2), (15, 14), (14, 2), (15,
  14), (14, 2), (15, 14), (14, 34), (15, 14), (14, 2), (15, 14), (14, 2), (15, 14), (14, 2), (15, 14),
  (14, 2), (15, 14), (14, 2), (15, 14), (14, 2), (15, 14), (14, 2), (15, 14), (14, 2), (15, 14), (14, 2),
  (15, 14), (14, 2), (15, 14), (14, 2), (15, 14), (14, 2), (15, 14), (14, 2), (15, 14), (14, 34), (15,
  14), (14, 2), (15, 14), (14, 2), (15, 14), (14, 2), (15, 14), (14, 2), (15, 14), (14, 2), (15, 14), (14,
  2), (15, 14), (14, 2), (15, 14), (14, 2), (15, 14), (14, 2), (15, 14), (14, 2), (15, 14), (14, 2), (15,
  14), (14, 2), (15, 14), (14, 2), (15, 14), (14, 273)]
  [(4, 1), (0, 4094), (16, 1)]

/-- A codec that can read it. -/
def codec28 : Codec := knows
  [((file28.drop 6).take 154, nodes28), ((file28.drop 160).take 9, [0])]

#guard passes codec28 file28 fun b =>
  b.version == 28 && b.flags == 3 && b.lighting == 0xF1C4 && b.contentWidth == 2 && b.paramsWidth == 2 &&
  b.nimap.getId (ascii "test_mod:timer") == some 0 && b.nimap.getId (ascii "air") == some 1 &&
  b.nd.nodes == 0 :: (List.replicate 4094 1 ++ [0]) && b.nd.param1[0x111]? == some 0x0F &&
  b.nd.param2 == 4 :: (List.replicate 4094 0 ++ [16]) && b.metas.isEmpty &&
  (b.objects.map fun o => (o.objType, o.fPos, o.data.length)) ==
    [(7, (⟨80000, 90000, 120000⟩ : Vec3), 62), (7, ⟨10000, 20000, 20000⟩, 81)] &&
  b.timestamp == 2756 && SMap.get? b.nimap 0 == some (ascii "test_mod:timer") &&
  SMap.get? b.nimap 1 == some (ascii "air") &&
  b.timers == [⟨0xFFF, 1337, 600⟩, ⟨0, 1337, 200⟩]

/-- `check_error`. -/
def checkError (i : Nat) (x : UInt8) (e : MbErr) : Bool :=
  decide (deserialize codec28 (file28.set i x) = .error (.err e))

#guard checkError 0 24 .invalidBlockVersion && checkError 0 30 .invalidBlockVersion
#guard checkError 4 1 .invalidFeature && checkError 5 3 .invalidFeature
#guard checkError 0xA9 1 .invalidSubVersion && checkError 0x15D 1 .invalidSubVersion
#guard checkError 0x179 12 .invalidFeature

/-- The block with another `param1`, saved and loaded. -/
def withParam1 (f : Bytes → Bytes) : Res MapBlock := do
  let b ← deserialize codec28 file28
  deserialize codec28 (← serialize codec28 (fun _ v => v) { b with nd := { b.nd with param1 := f b.nd.param1 } })

#guard decide (withParam1 id = deserialize codec28 file28)
#guard decide (withParam1 (fun l => l ++ [0]) = .error (.err .badData))
#guard decide (withParam1 (fun l => l.take 4095) = .error (.err .badData))

/-- `testing/mapblock_v25.bin`. -/
def file25 : Bytes :=
  [25, 3, 2, 2, 120, 156, 237, 217, 203, 10, 128, 32, 20, 64, 65, 109, 29, 250, 255, 127, 219, 90, 3, 11,
  130, 20, 239, 156, 89, 73, 45, 124, 80, 16, 165, 148, 242, 192, 248, 42, 235, 251, 126, 190, 199, 244,
  53, 0, 0, 0, 0, 0, 0, 0, 239, 248, 255, 187, 183, 167, 243, 173, 77, 169, 180, 227, 178, 219, 184, 95,
  111, 237, 110, 184, 141, 37, 73, 146, 36, 73, 91, 20, 253, 251, 87, 93, 231, 236, 9, 72, 250, 187, 60,
  123, 2, 107, 20, 110, 27, 194, 45, 88, 146, 186, 188, 7, 21, 190, 128, 15, 193, 5, 11, 62, 255, 89, 120,
  156, 99, 0, 0, 0, 1, 0, 1, 0, 0, 2, 7, 255, 255, 60, 176, 255, 254, 121, 96, 255, 253, 182, 16, 0, 72,
  1, 0, 21, 116, 101, 115, 116, 95, 109, 111, 100, 58, 99, 111, 108, 111, 114, 95, 101, 110, 116, 105,
  116, 121, 0, 0, 0, 26, 114, 101, 116, 117, 114, 110, 32, 123, 91, 34, 99, 111, 108, 111, 114, 95, 110,
  117, 109, 34, 93, 32, 61, 32, 53, 125, 0, 10, 0, 0, 0, 0, 0, 0, 0, 0, 0, 0, 0, 0, 0, 0, 0, 0, 7, 255,
  253, 221, 32, 255, 254, 43, 64, 255, 254, 121, 96, 0, 54, 1, 0, 23, 116, 101, 115, 116, 95, 109, 111,
  100, 58, 110, 97, 109, 101, 116, 97, 103, 95, 101, 110, 116, 105, 116, 121, 0, 0, 0, 6, 51, 53, 50, 49,
  51, 56, 0, 10, 0, 0, 0, 0, 0, 0, 0, 0, 0, 0, 0, 0, 0, 0, 0, 0, 0, 0, 9, 225, 0, 0, 3, 0, 0, 0, 14, 116,
  101, 115, 116, 95, 109, 111, 100, 58, 115, 116, 111, 110, 101, 0, 1, 0, 3, 97, 105, 114, 0, 2, 0, 14,
  116, 101, 115, 116, 95, 109, 111, 100, 58, 116, 105, 109, 101, 114, 10, 0, 1, 1, 17, 0, 0, 5, 57, 0, 0,
  0, 0]

/-- Its node data. -/
def nodes25 : Bytes := plain
  [(0, 1), (1, 14), (0, 1), (1, 224), (0, 1), (1, 14), (0, 1), (1, 17), (2, 1), (1, 3566), (0, 1), (1, 14),
  (0, 1), (1, 224), (0, 1), (1, 14), (0, 1)]
  [(0, 1), (15, 14), (0, 1), (14, 1), (15, 14), (14, 2), (15, 14), (14, 2), (15, 14), (14, 2), (15, 14),
  (14, 2), (15, 14), (14, 2), (15, 14), (14, 2), (15, 14), (14, 2), (15, 14), (14, 2), (15, 14), (14, 2),
  (15, 14), (14, 2), (15, 14), (14, 2), (15, 14), (14, 2), (15, 14), (14, 2), (15, 14), (14, 1), (0, 1),
  (15, 14), (0, 1), (15, 1), (14, 1), (15, 15), (14, 1), (15, 3566), (0, 1), (15, 14), (0, 1), (14, 1),
  (15, 14), (14, 2), (15, 14), (14, 2), (15, 14), (14, 2), (15, 14), (14, 2), (15, 14), (14, 2), (15, 14),
  (14, 2), (15, 14), (14, 2), (15, 14), (14, 2), (15, 14), (14, 2), (15, 14), (14, 2), (15, 14), (14, 2),
  (15, 14), (14, 2), (15, 14), (14, 2), (15, 14), (14, 1), (0, 1), (15, 14), (0, 1)]
  [(0, 273), (12, 1), (0, 1014), (1, 1), (0, 262), (1, 1), (0, 240), (1, 1), (0, 1287), (1, 1), (0, 772),
  (1, 1), (0, 242)]

/-- A codec that can read it. -/
def codec25 : Codec := knows
  [((file25.drop 4).take 112, nodes25), ((file25.drop 116).take 9, [0])]

#guard passes codec25 file25 fun b =>
  b.version == 25 && b.flags == 3 && b.lighting == 0xFFFF && b.contentWidth == 2 && b.paramsWidth == 2 &&
  (([0, 15].flatMap fun z => [0, 15].flatMap fun y => [0, 15].map fun x => x + 16 * (y + 16 * z)).all fun i =>
    b.nd.nodes[i]? == b.nimap.getId (ascii "test_mod:stone")) &&
  b.nd.nodes[1]? == b.nimap.getId (ascii "air") && b.nd.nodes[0x111]? == b.nimap.getId (ascii "test_mod:timer") &&
  b.nd.param2[0x111]? == some 12 && b.metas.isEmpty &&
  (b.objects.map fun o => (o.objType, o.fPos, o.data.length)) ==
    [(7, (⟨-50000, -100000, -150000⟩ : Vec3), 72), (7, ⟨-140000, -120000, -100000⟩, 54)] &&
  b.timestamp == 2529 &&
  b.nimap == [(0, ascii "test_mod:stone"), (1, ascii "air"), (2, ascii "test_mod:timer")] &&
  b.timers.take 1 == [⟨0x111, 1337, 0⟩]

/-! ## With buffers (`Model/Memory`) -/

/-- Memory full of 170s, and decompressors that give out at most 100 bytes at a time. -/
def outside (c : Codec) : Raw.Outside := ⟨.debug, c, fun _ _ => 170, fun k => k % 101, fun k => 32 + k, fun _ => [1, 2, 3]⟩

#guard decide ((Raw.deserialize (outside codec28) file28).1 = deserialize codec28 file28)
#guard decide ((Raw.deserialize (outside codec25) file25).1 = deserialize codec25 file25)
#guard (Raw.deserialize (outside codec28) file28).2.bufs == [8192, 8192, 4096, 4096, 62, 81, 14, 3]
#guard (Raw.deserialize (outside codec28) file28).2.caps == [2, 2]

end MapEditr.RepoTests
