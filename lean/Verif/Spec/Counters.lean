import Verif.Spec.Map
/-! # Specification: sizes that matter to counters -/

namespace MapEditr.Spec

/-- The inventories of the block hold at most 64 MiB. -/
def SmallInvs (b : MapBlock) : Prop := (b.metas.map fun e => e.2.inv.length).sum ≤ 67108864

end MapEditr.Spec
