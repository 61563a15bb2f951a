/-
The part of the `github.com/weaviate/sroar` bitmap API that the code uses. The library is
not part of /repo, so it is a parameter: any type with these operations (`Bitmap`), obeying
the set-like laws (`LawfulBitmap`). The laws are the assumptions about `sroar`.
-/
import Verif.Model.Prim
namespace VibeCol

/-- Operations used by pkg/col and pkg/multicol (writer.go:45, writer_block_io.go:75,
writer_finalize.go:19, reader.go:149 and 171, reader_aggregate.go:161-162, 197, 200,
multicol/aggregate.go:59, 82). `sroar`'s in-place `Set` and `Or` become functions that
return the new bitmap. -/
class Bitmap (B : Type) where
  /-- `sroar.NewBitmap()` -/
  empty : B
  /-- `bm.Set(id)` -/
  set : B → UInt64 → B
  /-- `bm.Contains(id)` -/
  contains : B → UInt64 → Bool
  /-- `a.Or(b)` -/
  or : B → B → B
  /-- `bm.Minimum()`; its value on an empty bitmap is left open -/
  minimum : B → UInt64
  /-- `bm.Maximum()`; its value on an empty bitmap is left open -/
  maximum : B → UInt64
  /-- `bm.ToBuffer()` -/
  toBuffer : B → Bytes
  /-- `sroar.FromBuffer(buf)` -/
  fromBuffer : Bytes → B

/-- What is assumed about `sroar`. -/
class LawfulBitmap (B : Type) [Bitmap B] : Prop where
  contains_empty : ∀ x, Bitmap.contains (Bitmap.empty : B) x = false
  contains_set : ∀ (b : B) x y, Bitmap.contains (Bitmap.set b x) y = (x == y || Bitmap.contains b y)
  contains_or : ∀ (a b : B) x, Bitmap.contains (Bitmap.or a b) x = (Bitmap.contains a x || Bitmap.contains b x)
  minimum_le : ∀ (b : B) x, Bitmap.contains b x = true → Bitmap.minimum b ≤ x
  le_maximum : ∀ (b : B) x, Bitmap.contains b x = true → x ≤ Bitmap.maximum b
  contains_fromBuffer_toBuffer : ∀ (b : B) x,
    Bitmap.contains (Bitmap.fromBuffer (Bitmap.toBuffer b) : B) x = Bitmap.contains b x

end VibeCol
