import Verif.Model.Spatial
/-!
# Fixed-width rendering of the coordinate arithmetic

The same functions as in `Verif/Model/Spatial.lean`, with every `i32`/`i64`/`u64` operation done by
`i32`/`i64`, which panics (debug) or wraps (release) when the exact value does not fit.  C10 shows
that for accepted arguments these agree with the unbounded rendering.
-/

namespace MapEditr.Checked

/-- `Vec3::from_block_key`, `src/spatial/vec3.rs:17-23`, with `i64` arithmetic. -/
def fromBlockKey (b : Build) (key : Int) : Res Vec3 := do
  let k1 ← i64 b (key + 2048)
  let x ← i64 b (k1 % 4096 - 2048)
  let kx ← i64 b (key - x)
  let rem ← i64 b (kx.tdiv 4096)
  let r1 ← i64 b (rem + 2048)
  let y ← i64 b (r1 % 4096 - 2048)
  let ry ← i64 b (rem - y)
  let z ← i64 b (ry.tdiv 4096)
  return ⟨wrapI32 x, wrapI32 y, wrapI32 z⟩

/-- `Vec3::to_block_key`, `src/spatial/vec3.rs:25-34`, with `i64` arithmetic. -/
def toBlockKey (b : Build) (v : Vec3) : Res Int := do
  rassert (decide (-2048 ≤ v.x ∧ v.x < 2048 ∧ -2048 ≤ v.y ∧ v.y < 2048 ∧ -2048 ≤ v.z ∧ v.z < 2048))
    "to_block_key: position out of range"
  let y4 ← i64 b (v.y * 4096)
  let xy ← i64 b (v.x + y4)
  let z4 ← i64 b (v.z * 4096)
  let z44 ← i64 b (z4 * 4096)
  i64 b (xy + z44)

/-- `Add<Vec3>`, `src/spatial/vec3.rs:71-81`. -/
def vadd (b : Build) (p q : Vec3) : Res Vec3 := do
  return ⟨← i32 b (p.x + q.x), ← i32 b (p.y + q.y), ← i32 b (p.z + q.z)⟩
/-- `Add<i32>`, `src/spatial/vec3.rs:83-93`. -/
def vaddS (b : Build) (p : Vec3) (s : Int) : Res Vec3 := do
  return ⟨← i32 b (p.x + s), ← i32 b (p.y + s), ← i32 b (p.z + s)⟩
/-- `Sub<Vec3>`, `src/spatial/vec3.rs:95-105`. -/
def vsub (b : Build) (p q : Vec3) : Res Vec3 := do
  return ⟨← i32 b (p.x - q.x), ← i32 b (p.y - q.y), ← i32 b (p.z - q.z)⟩
/-- `Mul<Vec3>`, `src/spatial/vec3.rs:119-129`. -/
def vmul (b : Build) (p q : Vec3) : Res Vec3 := do
  return ⟨← i32 b (p.x * q.x), ← i32 b (p.y * q.y), ← i32 b (p.z * q.z)⟩
/-- `Mul<i32>`, `src/spatial/vec3.rs:131-141`. -/
def vmulS (b : Build) (p : Vec3) (s : Int) : Res Vec3 := do
  return ⟨← i32 b (p.x * s), ← i32 b (p.y * s), ← i32 b (p.z * s)⟩

/-- One axis of `Area::volume`: `(max - min + 1) as u64`, `src/spatial/area.rs:77-81`. -/
def span (b : Build) (lo hi : Int) : Res Int := do
  let d ← i32 b (hi - lo)
  let d1 ← i32 b (d + 1)
  return d1 % 18446744073709551616

/-- A `u64` multiplication. -/
def u64mul (b : Build) (m n : Int) : Res Int :=
  if m * n ≤ 18446744073709551615 then .ok (m * n)
  else match b with
    | .debug => .error (.panic "u64 overflow")
    | .release => .ok (m * n % 18446744073709551616)

/-- `Area::volume`, `src/spatial/area.rs:77-81`. -/
def volume (b : Build) (a : Area) : Res Int := do
  let x ← span b a.min.x a.max.x
  let y ← span b a.min.y a.max.y
  let xy ← u64mul b x y
  let z ← span b a.min.z a.max.z
  u64mul b xy z

/-- One axis of `contains_block`, `src/spatial/area.rs:107-109` (the checks of later axes may be
skipped by `&&`; here every axis is evaluated, which can only overflow more). -/
def axisContains (b : Build) (lo hi c : Int) : Res Bool := do
  let c15 ← i32 b (c + 15)
  return decide (lo ≤ c ∧ c15 ≤ hi)

/-- `Area::contains_block`, `src/spatial/area.rs:105-110`. -/
def containsBlock (b : Build) (a : Area) (bp : Vec3) : Res Bool := do
  let c ← vmulS b bp 16
  return (← axisContains b a.min.x a.max.x c.x) && (← axisContains b a.min.y a.max.y c.y)
    && (← axisContains b a.min.z a.max.z c.z)

/-- One axis of `touches_block`, `src/spatial/area.rs:114-116`. -/
def axisTouches (b : Build) (lo hi c : Int) : Res Bool := do
  let c15 ← i32 b (c + 15)
  return decide (lo ≤ c15 ∧ c ≤ hi)

/-- `Area::touches_block`, `src/spatial/area.rs:112-117`. -/
def touchesBlock (b : Build) (a : Area) (bp : Vec3) : Res Bool := do
  let c ← vmulS b bp 16
  return (← axisTouches b a.min.x a.max.x c.x) && (← axisTouches b a.min.y a.max.y c.y)
    && (← axisTouches b a.min.z a.max.z c.z)

/-- `Area::to_contained_block_area`, `src/spatial/area.rs:119-133`. -/
def toContainedBlockArea (b : Build) (a : Area) : Res (Option Area) := do
  let lo ← vaddS b a.min 15
  let hi ← vaddS b a.max (-15)
  let contained : Area := ⟨⟨lo.x / 16, lo.y / 16, lo.z / 16⟩, ⟨hi.x / 16, hi.y / 16, hi.z / 16⟩⟩
  return contained.filterValid

/-- `Area::abs_block_overlap`, `src/spatial/area.rs:150-166`. -/
def absBlockOverlap (b : Build) (a : Area) (bp : Vec3) : Res (Option Area) := do
  let bmin ← vmulS b bp 16
  let bmax ← vaddS b bmin 15
  let o : Area :=
    ⟨⟨Max.max a.min.x bmin.x, Max.max a.min.y bmin.y, Max.max a.min.z bmin.z⟩,
     ⟨Min.min a.max.x bmax.x, Min.min a.max.y bmax.y, Min.min a.max.z bmax.z⟩⟩
  return o.filterValid

/-- `Area::rel_block_overlap`, `src/spatial/area.rs:168-185`. -/
def relBlockOverlap (b : Build) (a : Area) (bp : Vec3) : Res (Option Area) := do
  let corner ← vmulS b bp 16
  let rmin ← vsub b a.min corner
  let rmax ← vsub b a.max corner
  let o : Area :=
    ⟨⟨Max.max rmin.x 0, Max.max rmin.y 0, Max.max rmin.z 0⟩,
     ⟨Min.min rmax.x 15, Min.min rmax.y 15, Min.min rmax.z 15⟩⟩
  return o.filterValid

/-- `Add<Vec3> for Area`, `src/spatial/area.rs:197-206`. -/
def areaAdd (b : Build) (a : Area) (v : Vec3) : Res Area := do
  return ⟨← vadd b a.min v, ← vadd b a.max v⟩

/-- `Sub<Vec3> for Area`, `src/spatial/area.rs:208-217`. -/
def areaSub (b : Build) (a : Area) (v : Vec3) : Res Area := do
  return ⟨← vsub b a.min v, ← vsub b a.max v⟩

/-- `|v| if v > 0 { -1 } else { 1 }`, `src/commands/clone.rs:57`. -/
def sortDir (v : Int) : Int := if v > 0 then -1 else 1

/-- `|v| if v == -1 { -1 } else { 0 }`, `src/commands/clone.rs:59`. -/
def sortOfs (v : Int) : Int := if v = -1 then -1 else 0

/-- The sort key of `clone`, `src/commands/clone.rs:57-63`. -/
def cloneSortKey (b : Build) (offset : Vec3) (key : Int) : Res Int := do
  let dir := offset.map sortDir
  let so := dir.map sortOfs
  let p ← fromBlockKey b key
  let m ← vmul b p dir
  let s ← vadd b m so
  toBlockKey b s

end MapEditr.Checked
