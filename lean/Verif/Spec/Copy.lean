import Verif.Spec.Map
import Verif.Spec.Runs
/-!
# What copying nodes from map to map means
-/

namespace MapEditr.Spec
open MapEditr

/-- The block has been generated: the "not generated" bit (bit 3) of its flags is clear. -/
def Generated (b : MapBlock) : Prop := b.flags.testBit 3 = false

instance (b : MapBlock) : Decidable (Generated b) := inferInstanceAs (Decidable (_ = _))

/-- In map `t`, node `q` is in the block `b`, which is readable and has been generated.  (It is node
number `idxOf q` of `b`.) -/
def Shows (c : Codec) (t : Table) (q : Vec3) (b : MapBlock) : Prop :=
  ValidBlockPos (blockOf q) ∧ Generated b ∧ ∃ d, (keyOf (blockOf q), d) ∈ t ∧ Represents c d b

/-- Node `i` of `b'` has name, parameters and metadata of node `j` of `b`.  (If node `j` has no name,
node `i` may have any.  Metadata is indexed by 16 bits; of an index, the lower 12 bits are the number of
the node and the upper 4 stay as they are.) -/
def NodeAs (b' : MapBlock) (i : Nat) (b : MapBlock) (j : Nat) : Prop :=
  (∀ n, nodeName b j = some n → nodeName b' i = some n) ∧ b'.nd.param1[i]? = b.nd.param1[j]? ∧
  b'.nd.param2[i]? = b.nd.param2[j]? ∧
  ∀ q, q < 16 → SavedMeta b' (metaOf b (4096 * q + j)) (metaOf b' (4096 * q + i))

/-- Everything but the nodes and their metadata stays the same. -/
def SameRest (b b' : MapBlock) : Prop :=
  SameHead b b' ∧ b'.objects = b.objects ∧ b'.timers = b.timers

/-- `t'` is `t` with nodes copied from `src`: every node `p` with `Sel p`, in a readable generated
block of `t`, is now what `src` shows at `p - o`, if it shows a node there and `Reach (p - o)`; all
else is as before.  Rows of unreadable blocks, of blocks that are not generated, and of blocks
without any selected node keep their bytes. -/
structure Copied (c : Codec) (src t t' : Table) (o : Vec3) (Sel Reach : Vec3 → Prop) : Prop where
  nodup : (t'.map (·.1)).Nodup
  keys : ∀ k, k ∈ t'.map (·.1) ↔ k ∈ t.map (·.1)
  bad : ∀ k d, (k, d) ∈ t → (∀ b, Represents c d b → ¬ Generated b) → (k, d) ∈ t'
  outside : ∀ bp d, ValidBlockPos bp → (keyOf bp, d) ∈ t → (∀ p, InBlock bp p → ¬ Sel p) →
    (keyOf bp, d) ∈ t'
  good : ∀ bp d b, ValidBlockPos bp → (keyOf bp, d) ∈ t → Represents c d b → Generated b →
    ∃ d' b', (keyOf bp, d') ∈ t' ∧ Represents c d' b' ∧ SameRest b b' ∧
      ∀ i, i < 4096 →
        (∀ sb, Sel (posAt bp i) → Reach (unshift (posAt bp i) o) →
          Shows c src (unshift (posAt bp i) o) sb → NodeAs b' i sb (idxOf (unshift (posAt bp i) o))) ∧
        ((∀ sb, ¬ (Sel (posAt bp i) ∧ Reach (unshift (posAt bp i) o) ∧
          Shows c src (unshift (posAt bp i) o) sb)) → NodeAs b' i b i)

/-- Block data of a supported version whose flags byte says "generated" (bit 3 clear), readable or
not.  The flags byte follows the version byte; in version 29 it is the first byte of the compressed
rest. -/
def GenData (c : Codec) (d : Bytes) : Prop :=
  ∃ v rest fl, d = v :: rest ∧ rest ≠ [] ∧ 25 ≤ v.toNat ∧ v.toNat ≤ 29 ∧ fl.toNat.testBit 3 = false ∧
    (if v.toNat < 29 then rest.head? = some fl else c.zstdHead rest = some fl)

/-- All nodes of the block at `bp` are selected. -/
def Whole (area : Option Area) (invert : Bool) (bp : Vec3) : Prop :=
  ∀ p, InBlock bp p → Selected area invert p

/-- Some, but not all nodes of the block at `bp` are selected. -/
def Partly (area : Option Area) (invert : Bool) (bp : Vec3) : Prop :=
  (∃ p, InBlock bp p ∧ Selected area invert p) ∧ ∃ p, InBlock bp p ∧ ¬ Selected area invert p

/-- `src` overrides the row of the block at `bp`, which holds `d` in `t`: either wholly, or the
selected part of a block that is readable in both maps, generated in `t`, and in `src` satisfies
`SrcOk`. -/
def Overridden (c : Codec) (src : Table) (area : Option Area) (invert : Bool) (SrcOk : MapBlock → Prop)
    (bp : Vec3) (d : Bytes) : Prop :=
  (Whole area invert bp ∧ ∃ sd, (keyOf bp, sd) ∈ src ∧ GenData c sd) ∨
  (Partly area invert bp ∧ ∃ sd sb b, (keyOf bp, sd) ∈ src ∧ Represents c sd sb ∧ SrcOk sb ∧
    Represents c d b ∧ Generated b)

/-- `t'` is `t` with the selected blocks and nodes of `src` laid over it: source data that is
generated replaces rows of entirely selected blocks byte for byte; in partly selected blocks, the
selected nodes are the source's and the others keep being the main map's; all other rows keep their
bytes, and no other rows appear.  (Objects, timers and the like of partly selected blocks are those
of the main map, or with `invert` those of the source.) -/
structure Overlaid (c : Codec) (src t t' : Table) (area : Option Area) (invert : Bool)
    (SrcOk : MapBlock → Prop) : Prop where
  nodup : (t'.map (·.1)).Nodup
  whole : ∀ bp sd, ValidBlockPos bp → (keyOf bp, sd) ∈ src → Whole area invert bp → GenData c sd →
    (keyOf bp, sd) ∈ t'
  part : ∀ bp sd sb d b, ValidBlockPos bp → (keyOf bp, sd) ∈ src → Represents c sd sb → SrcOk sb →
    (keyOf bp, d) ∈ t → Represents c d b → Generated b → Partly area invert bp →
    ∃ d' b', (keyOf bp, d') ∈ t' ∧ Represents c d' b' ∧
      SameRest (if invert then sb else b) b' ∧ Public b' ∧
      ∀ i, i < 4096 → NodeAs b' i (if Selected area invert (posAt bp i) then sb else b) i
  kept : ∀ bp d, ValidBlockPos bp → (keyOf bp, d) ∈ t → ¬ Overridden c src area invert SrcOk bp d →
    (keyOf bp, d) ∈ t'
  added : ∀ k d, (k, d) ∈ t' → k ∈ t.map (·.1) ∨
    ((k, d) ∈ src ∧ GenData c d ∧ ∃ bp, ValidBlockPos bp ∧ keyOf bp = k ∧ Whole area invert bp)

/-- `t'` has the rows of `t`, each either byte for byte, or at least with the same contents. -/
structure Alike (c : Codec) (t t' : Table) : Prop where
  nodup : (t'.map (·.1)).Nodup
  keys : ∀ k, k ∈ t'.map (·.1) ↔ k ∈ t.map (·.1)
  rows : ∀ k d, (k, d) ∈ t → (k, d) ∈ t' ∨ ∃ d' b b', (k, d') ∈ t' ∧ Represents c d b ∧ Represents c d' b' ∧
    SameRest b b' ∧ ∀ i, i < 4096 → NodeAs b' i b i

/-! ## When reads may fail -/

/-- `t'` is `t` with some nodes copied from `src`: like `Copied`, but all that is known of a node is that
it is as before, or as it should become. -/
structure CopiedOrKept (c : Codec) (src t t' : Table) (o : Vec3) (Sel Reach : Vec3 → Prop) : Prop where
  nodup : (t'.map (·.1)).Nodup
  keys : ∀ k, k ∈ t'.map (·.1) ↔ k ∈ t.map (·.1)
  bad : ∀ k d, (k, d) ∈ t → (∀ b, Represents c d b → ¬ Generated b) → (k, d) ∈ t'
  outside : ∀ bp d, ValidBlockPos bp → (keyOf bp, d) ∈ t → (∀ p, InBlock bp p → ¬ Sel p) →
    (keyOf bp, d) ∈ t'
  good : ∀ bp d b, ValidBlockPos bp → (keyOf bp, d) ∈ t → Represents c d b → Generated b →
    ∃ d' b', (keyOf bp, d') ∈ t' ∧ Represents c d' b' ∧ SameRest b b' ∧
      ∀ i, i < 4096 → NodeAs b' i b i ∨
        ∃ sb, Sel (posAt bp i) ∧ Reach (unshift (posAt bp i) o) ∧
          Shows c src (unshift (posAt bp i) o) sb ∧ NodeAs b' i sb (idxOf (unshift (posAt bp i) o))

/-- Like `Overlaid`, but a partly selected block may also be as before. -/
structure OverlaidOrKept (c : Codec) (src t t' : Table) (area : Option Area) (invert : Bool)
    (SrcOk : MapBlock → Prop) : Prop where
  nodup : (t'.map (·.1)).Nodup
  whole : ∀ bp sd, ValidBlockPos bp → (keyOf bp, sd) ∈ src → Whole area invert bp → GenData c sd →
    (keyOf bp, sd) ∈ t'
  part : ∀ bp sd sb d b, ValidBlockPos bp → (keyOf bp, sd) ∈ src → Represents c sd sb → SrcOk sb →
    (keyOf bp, d) ∈ t → Represents c d b → Generated b → Partly area invert bp →
    (keyOf bp, d) ∈ t' ∨
    ∃ d' b', (keyOf bp, d') ∈ t' ∧ Represents c d' b' ∧
      SameRest (if invert then sb else b) b' ∧ Public b' ∧
      ∀ i, i < 4096 → NodeAs b' i (if Selected area invert (posAt bp i) then sb else b) i
  kept : ∀ bp d, ValidBlockPos bp → (keyOf bp, d) ∈ t → ¬ Overridden c src area invert SrcOk bp d →
    (keyOf bp, d) ∈ t'
  added : ∀ k d, (k, d) ∈ t' → k ∈ t.map (·.1) ∨
    ((k, d) ∈ src ∧ GenData c d ∧ ∃ bp, ValidBlockPos bp ∧ keyOf bp = k ∧ Whole area invert bp)

end MapEditr.Spec
