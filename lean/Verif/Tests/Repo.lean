import Verif.Model.Commands
/-!
# The project's own unit tests, run on the model

Not proofs of anything general: they check that the model computes what the program's tests expect.
Each `example` is evaluated by the kernel.  The tests that read whole mapblocks from files are in
`Verif.Tests.Blocks`.  Not repeated: tests of `testing.rs`, `fmt_big_num` and of formatting positions.
-/

namespace MapEditr.RepoTests

/-! ## `src/spatial/vec3.rs:154-218` -/

example : (⟨-31000, 50, 31000⟩ : Vec3).isValidNodePos = true ∧
    (⟨-31000, -11, 31001⟩ : Vec3).isValidNodePos = false ∧
    (⟨-1937, -5, 1101⟩ : Vec3).isValidBlockPos = true ∧
    (⟨-1937, 1938, -10⟩ : Vec3).isValidBlockPos = false ∧
    (⟨-1938, 4, 1900⟩ : Vec3).isValidBlockPos = false ∧
    (⟨-3, 4, 10⟩ : Vec3).map (fun n => n * n * n) = ⟨-27, 64, 1000⟩ := by decide

/-- `bk_pairs`. -/
def keyPairs : List (Vec3 × Int) :=
  let Y : Int := 0x1000
  let Z : Int := 0x1000000
  [ (⟨0, 0, 0⟩, 0), (⟨1, 0, 0⟩, 1), (⟨0, 1, 0⟩, 1 * Y), (⟨0, 0, 1⟩, 1 * Z),
    (⟨-2048, 0, 0⟩, -2048), (⟨2047, 0, 0⟩, 2047), (⟨0, -2048, 0⟩, -2048 * Y),
    (⟨0, 2047, 0⟩, 2047 * Y), (⟨0, 0, -2048⟩, -2048 * Z), (⟨0, 0, 2047⟩, 2047 * Z),
    (⟨-42, 2047, -99⟩, -42 + 2047 * Y + -99 * Z), (⟨64, -2048, 22⟩, 64 + -2048 * Y + 22 * Z),
    (⟨2047, 555, 35⟩, 2047 + 555 * Y + 35 * Z), (⟨-2048, 600, -70⟩, -2048 + 600 * Y + -70 * Z),
    (⟨2047, -2048, 16⟩, 2047 + -2048 * Y + 16 * Z), (⟨-2048, 2047, 50⟩, -2048 + 2047 * Y + 50 * Z) ]

example : ∀ p ∈ keyPairs, p.1.toBlockKey = .ok p.2 ∧ Vec3.fromBlockKey p.2 = p.1 := by decide

example : ∀ p ∈ ([(⟨0, 0, 0⟩, 0), (⟨1, 0, 0⟩, 1), (⟨0, 1, 0⟩, 0x10), (⟨0, 0, 1⟩, 0x100),
    (⟨15, 15, 15⟩, 0xFFF), (⟨5, 15, 9⟩, 0x9F5)] : List (Vec3 × Nat)), Vec3.fromU16Key p.2 = p.1 := by decide

/-! ## `src/spatial/area.rs:224-353` -/

example : (⟨⟨0, 3, 1⟩, ⟨-1, 4, -2⟩⟩ : Area).isValid = false ∧
    .ok (Area.fromUnsorted ⟨8, 0, -10⟩ ⟨-8, 0, 10⟩) = Area.new ⟨-8, 0, -10⟩ ⟨8, 0, 10⟩ ∧
    .ok (Area.fromUnsorted ⟨10, 80, 42⟩ ⟨10, -50, 99⟩) = Area.new ⟨10, -50, 42⟩ ⟨10, 80, 99⟩ ∧
    (⟨⟨0, 0, 0⟩, ⟨0, 0, 0⟩⟩ : Area).volume = 1 ∧
    (⟨⟨1, -3000, 800⟩, ⟨4000, 999, 4799⟩⟩ : Area).volume = 4000 ^ 3 := by decide

example : Area.new ⟨0, 3, 1⟩ ⟨0, 2, 3⟩ = .error (.panic "Area::new: invalid") := by decide

/-- `iter_area`: the positions `next` yields, and that it ends after them. -/
def iterArea (a : Area) : Bool :=
  decide (AreaIter.drain (a.zyx.length + 1) (AreaIter.new a.min a.max) = (a.zyx, true))

example : iterArea ⟨⟨-1, -1, -1⟩, ⟨-1, -1, -1⟩⟩ = true ∧ iterArea ⟨⟨10, -99, 11⟩, ⟨10, -99, 12⟩⟩ = true ∧
    iterArea ⟨⟨0, -1, -2⟩, ⟨5, 7, 11⟩⟩ = true := by decide +kernel

/-- `triples`. -/
def triples : List (Area × Area × Option Area) :=
  [ (⟨⟨0, 0, 0⟩, ⟨0, 0, 0⟩⟩, ⟨⟨1, 1, 0⟩, ⟨1, 1, 0⟩⟩, none),
    (⟨⟨-10, -8, -10⟩, ⟨10, 8, 10⟩⟩, ⟨⟨-12, 0, -2⟩, ⟨-8, 13, 2⟩⟩, some ⟨⟨-10, 0, -2⟩, ⟨-8, 8, 2⟩⟩),
    (⟨⟨0, 0, 0⟩, ⟨2, 2, 2⟩⟩, ⟨⟨0, -1, 3⟩, ⟨2, 1, 5⟩⟩, none),
    (⟨⟨0, -10, -10⟩, ⟨30, 30, 30⟩⟩, ⟨⟨16, 16, -10⟩, ⟨29, 29, 20⟩⟩, some ⟨⟨16, 16, -10⟩, ⟨29, 29, 20⟩⟩) ]

example : ∀ t ∈ triples, t.1.intersection t.2.1 = t.2.2 ∧ t.2.1.intersection t.1 = t.2.2 := by decide

/-- `area`, `contained`, `touching`. -/
def area : Area := ⟨⟨-1, -32, 16⟩, ⟨30, -17, 54⟩⟩
@[inherit_doc area] def contained : Area := ⟨⟨0, -2, 1⟩, ⟨0, -2, 2⟩⟩
@[inherit_doc area] def touching : Area := ⟨⟨-1, -2, 1⟩, ⟨1, -2, 3⟩⟩

example : area.contains ⟨0, -32, 32⟩ = true ∧ area.contains ⟨30, -32, 54⟩ = true ∧
    area.contains ⟨30, -17, 55⟩ = false ∧ area.contains ⟨-2, -30, 16⟩ = false ∧
    area.toContainedBlockArea = some contained ∧ area.toTouchingBlockArea = touching ∧
    (⟨⟨16, 0, 1⟩, ⟨31, 15, 15⟩⟩ : Area).toContainedBlockArea = none := by decide

example : ∀ p ∈ (⟨touching.min.addS (-2), touching.max.addS 2⟩ : Area).positions,
    area.touchesBlock p = touching.contains p ∧ area.containsBlock p = contained.contains p := by
  decide +kernel

example : ∀ p ∈ ([(⟨-1, -1, -1⟩, some ⟨⟨-3, -3, -3⟩, ⟨-1, -1, -1⟩⟩),
      (⟨0, 0, 0⟩, some ⟨⟨0, 0, 0⟩, ⟨15, 15, 15⟩⟩), (⟨1, 1, 1⟩, none),
      (⟨-1, 0, 0⟩, some ⟨⟨-3, 0, 0⟩, ⟨-1, 15, 15⟩⟩)] : List (Vec3 × Option Area)),
    (⟨⟨-3, -3, -3⟩, ⟨15, 15, 15⟩⟩ : Area).absBlockOverlap p.1 = p.2 ∧
    ((⟨⟨-3, -3, -3⟩, ⟨15, 15, 15⟩⟩ : Area).relBlockOverlap p.1).map (fun a => a.add (p.1.mulS 16)) = p.2 := by
  decide

/-! ## `src/spatial/mod.rs:74-110` (one of its 1000 boxes per combination of ends) -/

/-- `test_area`. -/
def testInverse (a : Area) : Bool :=
  match InvIter.new a with
  | .ok it => decide (it.drain 4097 = (((⟨⟨0, 0, 0⟩, ⟨15, 15, 15⟩⟩ : Area).zyx.filter fun p => !a.contains p).map
      fun p => (p.x + p.y * 16 + p.z * 256).toNat, true))
  | .error _ => false

example : testInverse ⟨⟨1, 9, 0⟩, ⟨2, 15, 15⟩⟩ = true := by decide +kernel
example : testInverse ⟨⟨0, 0, 11⟩, ⟨15, 15, 15⟩⟩ = true := by decide +kernel
example : testInverse ⟨⟨13, 0, 4⟩, ⟨15, 14, 11⟩⟩ = true := by decide +kernel

/-! ## `src/map_block/mod.rs:96-178` (with shorter long strings) -/

example : wrStr16 (List.replicate 65536 0) = .error (.panic "write_string16: too long") := by
  simp only [wrStr16, List.length_replicate]; rfl

example : (do let a ← wrStr16 []; let b ← wrStr16 (ascii "Hello, world!"); let c ← wrStr32 []
              return flat (a ++ b ++ c)) =
    (.ok ([0, 0] ++ ([0, 0x0D] ++ ascii "Hello, world!") ++ [0, 0, 0, 0]) : Res Bytes) := by decide

example : rdStr16 [0, 0, 7] = .ok ([], [7]) ∧
    rdStr16 ([0, 0x0D] ++ ascii "Hello, world!" ++ [9]) = .ok (ascii "Hello, world!", [9]) ∧
    rdStr32 [0, 0, 0, 0] = .ok ([], []) := by decide

example : ∀ s ∈ ([[], [0xFF], [0, 1], [0, 0x2D] ++ ascii " actual data length < specified data length!"] : List Bytes),
    rdStr16 s = .error (.err .badData) := by decide

example : ∀ s ∈ ([[], [0, 0], [0, 0, 0, 1], [0xFF, 0xFF, 0xFF, 0xFF],
      [0, 0, 0, 0x2D] ++ ascii " actual data length < specified data length!"] : List Bytes),
    rdStr32 s = .error (.err .badData) := by decide

/-! ## `src/map_block/metadata.rs:158-240` -/

/-- `meta_in` without its version. -/
def metaIn : Bytes := [0, 4] ++ [0, 16, 0, 0, 0, 1, 0, 8] ++ ascii "formspec" ++ [0, 0, 0, 36] ++ ascii "size[4,1]list[context;main;0,0;4,1;]" ++ [0] ++ ascii "List main 4\nWidth 0\nEmpty\nEmpty\nItem basenodes:cobble 1 0 \"\\u0001check\\u0002EndInventory\\n\\u0003\"\nEmpty\nEndInventoryList\nEndInventory\n" ++ [14, 33, 0, 0, 0, 1, 0, 6] ++ ascii "secret" ++ [0, 0, 0, 10, 1] ++ ascii "pa55w0rd" ++ [2, 1] ++ ascii "EndInventory\n" ++ [3, 35, 0, 0, 0, 0] ++ ascii "EndInventory\n" ++ [15, 255, 0, 0, 0, 0] ++ ascii "List main 1\nWidth 0\nItem basenodes:dirt_with_grass 10\nEndInventoryList\nEndInventory\n"

/-- `meta_out`. -/
def metaOut : Bytes := [2, 0, 3] ++ [0, 16, 0, 0, 0, 1, 0, 8] ++ ascii "formspec" ++ [0, 0, 0, 36] ++ ascii "size[4,1]list[context;main;0,0;4,1;]" ++ [0] ++ ascii "List main 4\nWidth 0\nEmpty\nEmpty\nItem basenodes:cobble 1 0 \"\\u0001check\\u0002EndInventory\\n\\u0003\"\nEmpty\nEndInventoryList\nEndInventory\n" ++ [14, 33, 0, 0, 0, 1, 0, 6] ++ ascii "secret" ++ [0, 0, 0, 10, 1] ++ ascii "pa55w0rd" ++ [2, 1] ++ ascii "EndInventory\n" ++ [15, 255, 0, 0, 0, 0] ++ ascii "List main 1\nWidth 0\nItem basenodes:dirt_with_grass 10\nEndInventoryList\nEndInventory\n"

/-- `meta_v1`. -/
def metaV1 : Bytes := [1, 0, 2] ++ [0, 16, 0, 0, 0, 1, 0, 8] ++ ascii "formspec" ++ [0, 0, 0, 36] ++ ascii "size[4,1]list[context;main;0,0;4,1;]" ++ ascii "List main 4\nWidth 0\nEmpty\nEmpty\nItem basenodes:cobble\nEmpty\nEndInventoryList\nEndInventory\n" ++ [13, 183, 0, 0, 0, 0] ++ ascii "List main 1\nWidth 0\nItem basenodes:dirt_with_grass 10\nEndInventoryList\nEndInventory\n"

/-- `missing_inv`. -/
def missingInv : Bytes := [2, 0, 2] ++ [1, 35, 0, 0, 0, 1, 0, 3] ++ ascii "foo" ++ [0, 0, 0, 3] ++ ascii "bar" ++ [0] ++ ascii "\n			" ++ [15, 237, 0, 0, 0, 1, 0, 13] ++ ascii "fake_inv_test" ++ [0, 0, 0, 12] ++ ascii "EndInventory" ++ [0]

/-- `meta_serialize_slice` after `meta_deserialize_slice`: number of entries, some private marks, the
bytes saved. -/
def resave (s : Bytes) (ver : Nat) (asks : List (Nat × Bytes)) : Res (Nat × List (Option Bool) × Bytes) := do
  let (l, _) ← rdMetaList s
  let cs ← wrMetaList (fun _ v => v) l ver
  return (l.length, asks.map fun a => (SMap.get? l a.1).bind fun m => (SMap.get? m.vars a.2).map (·.2), flat cs)

example : rdMetaList [0] = .ok ([], []) ∧ wrMetaList (fun _ v => v) [] 25 = .ok [.all [0]] ∧
    wrMetaList (fun _ v => v) [] 29 = .ok [.all [0]] := by decide

example : resave (2 :: metaIn) 29 [(0x010, ascii "formspec"), (0xe21, ascii "secret")] =
    .ok (4, [some false, some true], metaOut) := by decide +kernel

example : rdMetaList (3 :: metaIn) = .error (.err .invalidSubVersion) := by decide +kernel

example : resave metaV1 25 [(0x010, ascii "formspec")] = .ok (2, [some false], metaV1) := by decide +kernel

example : rdMetaList missingInv = .error (.err .badData) := by decide +kernel

/-! ## `src/map_block/static_object.rs:98-125` -/

/-- `entity.data`. -/
def luaData : Bytes := ascii "return {[\"age\"] = 0.91899997927248478, [\"itemstring\"] = \"basenodes:cobble 2\", [\"dropped_by\"] = \"singleplayer\"}"

/-- `test_obj` with the given type and version. -/
def testObj (ty : Nat) (v : UInt8) : StaticObject :=
  ⟨ty, ⟨4380, 17279, 32630⟩, v :: ([0, 0x0e] ++ ascii "__builtin:item" ++ [0, 0, 0, 0x6e] ++ luaData ++
    [0, 1, 0, 0, 0, 0, 0, 0, 0, 0, 0, 0, 0, 0, 0, 0, 0, 0, 1, 0, 0, 0, 0, 0, 0, 0, 0])⟩

example : LuaEntity.deserialize (testObj 7 1) = .ok ⟨ascii "__builtin:item", luaData⟩ ∧
    LuaEntity.deserialize (testObj 7 0) = .error (.err .invalidSubVersion) ∧
    LuaEntity.deserialize (testObj 6 1) = .error (.err .invalidFeature) := by decide +kernel

/-! ## `src/map_block/map_block.rs:188-210` (with a codec that knows the three zstd streams) -/

/-- What zstd answers for the three streams of the test. -/
def testCodec : Codec where
  zlibEnc := id
  zlibDec := fun _ => none
  zstdEnc := id
  zstdDec := fun _ => none
  zstdHead := fun s =>
    if s = [0x28, 0xB5, 0x2F, 0xFD, 0x00, 0x58, 0x19, 0x00, 0x00, 0x08, 0xFF, 0xFF] then some 8
    else if s = [0x28, 0xB5, 0x2F, 0xFD, 0x00, 0x58, 0x19, 0x00, 0x00, 0x00, 0xFF, 0xFF] then some 0
    else none
  accept := fun _ n => n

example : ∀ p ∈ ([([], false), ([0x18], false), ([0x1D], false), ([0x18, 0, 0, 0], false),
      ([0x1E, 0, 0, 0], false), ([0x1C, 8], false), ([0x1D, 0, 0xFF], false),
      ([0x1D, 0x28, 0xB5, 0x2F, 0xFD, 0x00, 0x58, 0x19, 0x00, 0x00, 0x08, 0xFF, 0xFF], false),
      ([0x1C, 0], true),
      ([0x1D, 0x28, 0xB5, 0x2F, 0xFD, 0x00, 0x58, 0x19, 0x00, 0x00, 0x00, 0xFF, 0xFF], true)] : List (Bytes × Bool)),
    isValidGenerated testCodec p.1 = p.2 := by decide

/-! ## `src/commands/replace_in_inv.rs:166-240` -/

/-- `original`. -/
def original : Bytes := ascii "List main 10\nWidth 5\nItem tools:pickaxe 1 300\nItem test:foo\nItem test:foo 3\nItem test:foo 10 32768\nEmpty\nItem test:foo 1 0 " ++ [1] ++ ascii "some variable" ++ [2] ++ ascii "some value" ++ [3] ++ ascii "\nItem test:foo 1 1234 " ++ [1] ++ ascii "color" ++ [2] ++ ascii "#FF00FF" ++ [3] ++ ascii "\nItem test:bar 20\nItem test:foo 42 0 " ++ [1] ++ ascii "random_number" ++ [2] ++ ascii "892" ++ [3] ++ ascii "\nItem test:foo 99 100 " ++ [1] ++ ascii "description" ++ [2] ++ ascii "test metadata" ++ [3] ++ ascii "\nEndInventoryList\nEndInventory\n"

/-- `replace`. -/
def replaced : Bytes := ascii "List main 10\nWidth 5\nItem tools:pickaxe 1 300\nItem test:bar\nItem test:bar 3\nItem test:bar 10 32768\nEmpty\nItem test:bar 1 0 " ++ [1] ++ ascii "some variable" ++ [2] ++ ascii "some value" ++ [3] ++ ascii "\nItem test:bar 1 1234 " ++ [1] ++ ascii "color" ++ [2] ++ ascii "#FF00FF" ++ [3] ++ ascii "\nItem test:bar 20\nItem test:bar 42 0 " ++ [1] ++ ascii "random_number" ++ [2] ++ ascii "892" ++ [3] ++ ascii "\nItem test:bar 99 100 " ++ [1] ++ ascii "description" ++ [2] ++ ascii "test metadata" ++ [3] ++ ascii "\nEndInventoryList\nEndInventory\n"

/-- `delete`. -/
def deleted : Bytes := ascii "List main 10\nWidth 5\nItem tools:pickaxe 1 300\nEmpty\nEmpty\nEmpty\nEmpty\nEmpty\nEmpty\nItem test:bar 20\nEmpty\nEmpty\nEndInventoryList\nEndInventory\n"

/-- `replace_delete_meta`. -/
def replacedNoMeta : Bytes := ascii "List main 10\nWidth 5\nItem tools:pickaxe 1 300\nItem test:bar\nItem test:bar 3\nItem test:bar 10 32768\nEmpty\nItem test:bar\nItem test:bar 1 1234\nItem test:bar 20\nItem test:bar 42\nItem test:bar 99 100\nEndInventoryList\nEndInventory\n"

example : (invReplace original (ascii "test:foo") (ascii "test:bar") false).1 = replaced := by decide +kernel
example : (invReplace original (ascii "test:foo") [] false).1 = deleted := by decide +kernel
example : (invReplace original (ascii "test:foo") (ascii "test:bar") true).1 = replacedNoMeta := by decide +kernel

/-! ## `src/commands/delete_objects.rs:167-183` -/

example : getItemName (ascii "default:glass") = ascii "default:glass" := by decide +kernel
example : getItemName (ascii "return {}") = ascii "" := by decide +kernel
example : getItemName (ascii "return {[\"itemstring\"] = \"\", [\"age\"] = 100}") = ascii "" := by decide +kernel
example : getItemName (ascii "return {[\"itemstring\"] = \"mod:item\"}") = ascii "mod:item" := by decide +kernel
example : getItemName (ascii "return {[\"age\"] = 400, [\"itemstring\"] = \"one:two 99 32\"}") = ascii "one:two" := by decide +kernel
example : getItemName (ascii "return {itemstring=\"\",age=100}") = ascii "" := by decide +kernel
example : getItemName (ascii "return {itemstring=\"mod:item\"}") = ascii "mod:item" := by decide +kernel
example : getItemName (ascii "return {age=400,itemstring=\"one:two 99 32\"}") = ascii "one:two" := by decide +kernel

end MapEditr.RepoTests
