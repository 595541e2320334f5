import Verif.Model.Codec
/-! # Spec: what is assumed of the decompressors' use of memory -/

namespace MapEditr

/-- A decompressor consumes no more bytes than there are, and what it makes of a vector fits in a vector
(Rust's vectors hold fewer than 2⁶³ bytes). -/
structure Codec.Sized (c : Codec) : Prop where
  consumed : ∀ s d n, c.zlibDec s = some (d, n) → n ≤ s.length
  zlib : ∀ s d n, s.length < 2 ^ 63 → c.zlibDec s = some (d, n) → d.length < 2 ^ 63
  zstd : ∀ s d, s.length < 2 ^ 63 → c.zstdDec s = some d → d.length < 2 ^ 63

end MapEditr
