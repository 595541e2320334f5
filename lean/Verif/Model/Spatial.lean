import Verif.Model.Prim
/-!
# Positions, areas and their iterators

Models `src/spatial/vec3.rs`, `src/spatial/area.rs`, `src/spatial/mod.rs`.
Coordinates are unbounded integers here (C10 proves no overflow under the program's own checks).
-/

namespace MapEditr

/-- `MAP_LIMIT`, `src/spatial/vec3.rs:1`. -/
def MAP_LIMIT : Int := 31000

/-- `Vec3`, `src/spatial/vec3.rs:5-9` (`i32` fields as `Int`). -/
@[ext] structure Vec3 where
  x : Int
  y : Int
  z : Int
  deriving DecidableEq, Repr

namespace Vec3

/-- `Vec3::from_block_key`, `src/spatial/vec3.rs:17-23`.  `rem_euclid` is `%`; `(key - x) / 4096`
is an exact division (the remainder is 0), so truncation does not matter; `as i32` keeps 32 bits.
Simplification: `key + 2048` is assumed not to overflow `i64` (if it does, see C116). -/
def fromBlockKey (key : Int) : Vec3 :=
  let x := (key + 2048) % 4096 - 2048
  let rem := (key - x).tdiv 4096
  let y := (rem + 2048) % 4096 - 2048
  let z := (rem - y).tdiv 4096
  ⟨wrapI32 x, wrapI32 y, wrapI32 z⟩

/-- `Vec3::to_block_key`, `src/spatial/vec3.rs:25-34`, including its `assert!`. -/
def toBlockKey (v : Vec3) : Res Int := do
  rassert (decide (-2048 ≤ v.x ∧ v.x < 2048 ∧ -2048 ≤ v.y ∧ v.y < 2048 ∧ -2048 ≤ v.z ∧ v.z < 2048))
    "to_block_key: position out of range"
  return v.x + v.y * 4096 + v.z * 4096 * 4096

/-- `Vec3::from_u16_key`, `src/spatial/vec3.rs:36-42` (`&`, `>>` on `u16`). -/
def fromU16Key (key : Nat) : Vec3 :=
  ⟨((key &&& 0xF : Nat) : Int), (((key >>> 4) &&& 0xF : Nat) : Int), (((key >>> 8) &&& 0xF : Nat) : Int)⟩

/-- `Vec3::is_valid_block_pos`, `src/spatial/vec3.rs:44-50`. -/
def isValidBlockPos (v : Vec3) : Bool :=
  let l := MAP_LIMIT.tdiv 16
  decide (-l ≤ v.x ∧ v.x ≤ l ∧ -l ≤ v.y ∧ v.y ≤ l ∧ -l ≤ v.z ∧ v.z ≤ l)

/-- `Vec3::is_valid_node_pos`, `src/spatial/vec3.rs:52-58`. -/
def isValidNodePos (v : Vec3) : Bool :=
  decide (-MAP_LIMIT ≤ v.x ∧ v.x ≤ MAP_LIMIT ∧ -MAP_LIMIT ≤ v.y ∧ v.y ≤ MAP_LIMIT
    ∧ -MAP_LIMIT ≤ v.z ∧ v.z ≤ MAP_LIMIT)

/-- `Vec3::map`, `src/spatial/vec3.rs:60-68`. -/
def map (v : Vec3) (f : Int → Int) : Vec3 := ⟨f v.x, f v.y, f v.z⟩

/-- `Add<Vec3>`, `src/spatial/vec3.rs:71-81`. -/
def add (a b : Vec3) : Vec3 := ⟨a.x + b.x, a.y + b.y, a.z + b.z⟩
/-- `Add<i32>`, `src/spatial/vec3.rs:83-93`. -/
def addS (a : Vec3) (s : Int) : Vec3 := ⟨a.x + s, a.y + s, a.z + s⟩
/-- `Sub<Vec3>`, `src/spatial/vec3.rs:95-105`. -/
def sub (a b : Vec3) : Vec3 := ⟨a.x - b.x, a.y - b.y, a.z - b.z⟩
/-- `Mul<Vec3>`, `src/spatial/vec3.rs:119-129`. -/
def mul (a b : Vec3) : Vec3 := ⟨a.x * b.x, a.y * b.y, a.z * b.z⟩
/-- `Mul<i32>`, `src/spatial/vec3.rs:131-141`. -/
def mulS (a : Vec3) (s : Int) : Vec3 := ⟨a.x * s, a.y * s, a.z * s⟩

instance : Add Vec3 := ⟨add⟩
instance : Sub Vec3 := ⟨sub⟩

end Vec3

/-- `Area`, `src/spatial/area.rs:43-47`. -/
@[ext] structure Area where
  min : Vec3
  max : Vec3
  deriving DecidableEq, Repr

namespace Area

/-- `Area::is_valid`, `src/spatial/area.rs:50-54`. -/
def isValid (a : Area) : Bool :=
  decide (a.min.x ≤ a.max.x ∧ a.min.y ≤ a.max.y ∧ a.min.z ≤ a.max.z)

/-- `Some(a).filter(Self::is_valid)`, as used in `src/spatial/area.rs:96,132,165,184`. -/
def filterValid (a : Area) : Option Area := if a.isValid then some a else none

/-- `Area::new`, `src/spatial/area.rs:56-60`, including its `assert!`. -/
def new (min max : Vec3) : Res Area := do
  let area : Area := ⟨min, max⟩
  rassert area.isValid "Area::new: invalid"
  return area

/-- `Area::from_unsorted`, `src/spatial/area.rs:62-75`. -/
def fromUnsorted (a b : Vec3) : Area :=
  ⟨⟨Min.min a.x b.x, Min.min a.y b.y, Min.min a.z b.z⟩,
   ⟨Max.max a.x b.x, Max.max a.y b.y, Max.max a.z b.z⟩⟩

/-- `Area::volume`, `src/spatial/area.rs:77-81`.  The casts to `u64` are exact for valid areas;
for invalid ones the real code would wrap, so the model is only used on valid areas. -/
def volume (a : Area) : Nat :=
  (a.max.x - a.min.x + 1).toNat * (a.max.y - a.min.y + 1).toNat * (a.max.z - a.min.z + 1).toNat

/-- `Area::intersection`, `src/spatial/area.rs:83-97`. -/
def intersection (a b : Area) : Option Area :=
  let res : Area :=
    ⟨⟨Max.max a.min.x b.min.x, Max.max a.min.y b.min.y, Max.max a.min.z b.min.z⟩,
     ⟨Min.min a.max.x b.max.x, Min.min a.max.y b.max.y, Min.min a.max.z b.max.z⟩⟩
  res.filterValid

/-- `Area::contains`, `src/spatial/area.rs:99-103`. -/
def contains (a : Area) (p : Vec3) : Bool :=
  decide (a.min.x ≤ p.x ∧ p.x ≤ a.max.x ∧ a.min.y ≤ p.y ∧ p.y ≤ a.max.y
    ∧ a.min.z ≤ p.z ∧ p.z ≤ a.max.z)

/-- `Area::contains_block`, `src/spatial/area.rs:105-110`. -/
def containsBlock (a : Area) (bp : Vec3) : Bool :=
  let c := bp.mulS 16
  decide (a.min.x ≤ c.x ∧ c.x + 15 ≤ a.max.x ∧ a.min.y ≤ c.y ∧ c.y + 15 ≤ a.max.y
    ∧ a.min.z ≤ c.z ∧ c.z + 15 ≤ a.max.z)

/-- `Area::touches_block`, `src/spatial/area.rs:112-117`. -/
def touchesBlock (a : Area) (bp : Vec3) : Bool :=
  let c := bp.mulS 16
  decide (a.min.x ≤ c.x + 15 ∧ c.x ≤ a.max.x ∧ a.min.y ≤ c.y + 15 ∧ c.y ≤ a.max.y
    ∧ a.min.z ≤ c.z + 15 ∧ c.z ≤ a.max.z)

/-- `Area::to_contained_block_area`, `src/spatial/area.rs:119-133` (`div_euclid` is `/`). -/
def toContainedBlockArea (a : Area) : Option Area :=
  let contained : Area :=
    ⟨⟨(a.min.x + 15) / 16, (a.min.y + 15) / 16, (a.min.z + 15) / 16⟩,
     ⟨(a.max.x - 15) / 16, (a.max.y - 15) / 16, (a.max.z - 15) / 16⟩⟩
  contained.filterValid

/-- `Area::to_touching_block_area`, `src/spatial/area.rs:135-148`. -/
def toTouchingBlockArea (a : Area) : Area :=
  ⟨⟨a.min.x / 16, a.min.y / 16, a.min.z / 16⟩, ⟨a.max.x / 16, a.max.y / 16, a.max.z / 16⟩⟩

/-- `Area::abs_block_overlap`, `src/spatial/area.rs:150-166`. -/
def absBlockOverlap (a : Area) (bp : Vec3) : Option Area :=
  let bmin := bp.mulS 16
  let bmax := bmin.addS 15
  let o : Area :=
    ⟨⟨Max.max a.min.x bmin.x, Max.max a.min.y bmin.y, Max.max a.min.z bmin.z⟩,
     ⟨Min.min a.max.x bmax.x, Min.min a.max.y bmax.y, Min.min a.max.z bmax.z⟩⟩
  o.filterValid

/-- `Area::rel_block_overlap`, `src/spatial/area.rs:168-185`. -/
def relBlockOverlap (a : Area) (bp : Vec3) : Option Area :=
  let corner := bp.mulS 16
  let rmin := a.min.sub corner
  let rmax := a.max.sub corner
  let o : Area :=
    ⟨⟨Max.max rmin.x 0, Max.max rmin.y 0, Max.max rmin.z 0⟩,
     ⟨Min.min rmax.x 15, Min.min rmax.y 15, Min.min rmax.z 15⟩⟩
  o.filterValid

/-- `Add<Vec3> for Area`, `src/spatial/area.rs:197-206`. -/
def add (a : Area) (v : Vec3) : Area := ⟨a.min.add v, a.max.add v⟩
/-- `Sub<Vec3> for Area`, `src/spatial/area.rs:208-217`. -/
def sub (a : Area) (v : Vec3) : Area := ⟨a.min.sub v, a.max.sub v⟩

end Area

/-- `AreaIterator`, `src/spatial/area.rs:5-9`. -/
structure AreaIter where
  min : Vec3
  max : Vec3
  pos : Vec3
  deriving DecidableEq, Repr

namespace AreaIter

/-- `AreaIterator::new`, `src/spatial/area.rs:13-15`. -/
def new (min max : Vec3) : AreaIter := ⟨min, max, min⟩

/-- `AreaIterator::next`, `src/spatial/area.rs:21-39`. -/
def next (it : AreaIter) : Option Vec3 × AreaIter :=
  if it.pos.z > it.max.z then (none, it)
  else
    let last := it.pos
    let p1 : Vec3 := ⟨it.pos.x + 1, it.pos.y, it.pos.z⟩
    let p2 : Vec3 :=
      if p1.x > it.max.x then
        let q : Vec3 := ⟨it.min.x, p1.y + 1, p1.z⟩
        if q.y > it.max.y then ⟨q.x, it.min.y, q.z + 1⟩ else q
      else p1
    (some last, { it with pos := p2 })

/-- `for p in iterator`: call `next` until it answers `None`, at most `fuel` times.
The second component tells whether `None` was reached. -/
def drain : Nat → AreaIter → List Vec3 × Bool
  | 0, _ => ([], false)
  | fuel + 1, it =>
    match it.next with
    | (none, _) => ([], true)
    | (some p, it') => let r := drain fuel it'; (p :: r.1, r.2)

end AreaIter

/-- `for pos in &area { ... }`, `src/spatial/area.rs:188-195`: the positions visited, in order.
One more call of `next` than the number of positions (for the final `None`). -/
def Area.positions (a : Area) : List Vec3 := (AreaIter.drain (a.volume + 1) (AreaIter.new a.min a.max)).1

/-- `InverseBlockIterator`, `src/spatial/mod.rs:10-17`. -/
structure InvIter where
  area : Area
  idx : Nat
  canSkip : Bool
  skipPos : Vec3
  skipIdx : Nat
  skipLen : Nat
  deriving DecidableEq, Repr

namespace InvIter

/-- `InverseBlockIterator::new`, `src/spatial/mod.rs:20-34`, including its `assert!`. -/
def new (area : Area) : Res InvIter := do
  rassert (decide (area.min.x ≥ 0 ∧ area.max.x < 16 ∧ area.min.y ≥ 0 ∧ area.max.y < 16
    ∧ area.min.z ≥ 0 ∧ area.max.z < 16)) "InverseBlockIterator::new"
  return { area, idx := 0, canSkip := true, skipPos := area.min,
           skipIdx := (area.min.x + area.min.y * 16 + area.min.z * 256).toNat,
           skipLen := (area.max.x - area.min.x + 1).toNat }

/-- One iteration of the `while` loop body of `next`, `src/spatial/mod.rs:42-56`.
The `break` coincides with `can_skip = false`, which ends the loop. -/
def skipOnce (it : InvIter) : InvIter :=
  let idx := it.idx + it.skipLen
  let sp : Vec3 := ⟨it.skipPos.x, it.skipPos.y + 1, it.skipPos.z⟩
  if sp.y > it.area.max.y then
    let sp2 : Vec3 := ⟨sp.x, it.area.min.y, sp.z + 1⟩
    if sp2.z > it.area.max.z then { it with idx, canSkip := false }
    else { it with idx, skipPos := sp2, skipIdx := (sp2.x + sp2.y * 16 + sp2.z * 256).toNat }
  else { it with idx, skipPos := sp, skipIdx := (sp.x + sp.y * 16 + sp.z * 256).toNat }

/-- The `while` loop of `next`, `src/spatial/mod.rs:41-57`, with fuel. -/
def skipLoop : Nat → InvIter → InvIter
  | 0, it => it
  | fuel + 1, it => if it.canSkip && decide (it.idx ≥ it.skipIdx) then skipLoop fuel it.skipOnce else it

/-- `InverseBlockIterator::next`, `src/spatial/mod.rs:40-66`.  The loop runs at most once per
16-node row (256 rows), so 257 units of fuel are never exhausted (part of C05). -/
def next (it : InvIter) : Option Nat × InvIter :=
  let it := skipLoop 257 it
  if it.idx < 4096 then (some it.idx, { it with idx := it.idx + 1 }) else (none, it)

/-- Call `next` until it answers `None`, at most `fuel` times. -/
def drain : Nat → InvIter → List Nat × Bool
  | 0, _ => ([], false)
  | fuel + 1, it =>
    match it.next with
    | (none, _) => ([], true)
    | (some i, it') => let r := drain fuel it'; (i :: r.1, r.2)

end InvIter

/-- `for idx in InverseBlockIterator::new(area)`: the indices visited, in order. -/
def inverseIndices (area : Area) : Res (List Nat) := do
  let it ← InvIter.new area
  return (it.drain 4097).1

/-- `lo ..= hi` on `i32`. -/
def rangeI (lo hi : Int) : List Int := (List.range (hi - lo + 1).toNat).map (fun i : Nat => lo + (i : Int))

/-- The triple loop `for z in .. { for y in .. { for x in .. {` over an area, as the list of
positions in visiting order (used by `fill_area`, `set_param2_partial`, `merge_blocks`). -/
def Area.zyx (a : Area) : List Vec3 :=
  (rangeI a.min.z a.max.z).flatMap fun z =>
    (rangeI a.min.y a.max.y).flatMap fun y =>
      (rangeI a.min.x a.max.x).map fun x => ⟨x, y, z⟩

end MapEditr
