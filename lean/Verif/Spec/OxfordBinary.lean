import Verif.Lemmas.Bytes

/-! The layout of an .ebsp file, as its contents written one after the other. -/

namespace Kp

/-- A pattern: its map indices (from version 5), pixel values in rows, and the beam position (from
version 1) as the bytes of two floating point numbers. -/
structure Spec.OxRecord where
  mapX : ℕ
  mapY : ℕ
  pixels : List ℕ
  x : List Byte
  y : List Byte

/-- The bytes of a pattern with `nrows` x `ncols` pixels of `width` bytes: the header, the pixels and
the footer. -/
def Spec.OxRecord.bytes (version nrows ncols width : ℕ) (r : Spec.OxRecord) : List Byte :=
  (if version ≤ 4 then [] else Spec.leBytes 4 r.mapX ++ Spec.leBytes 4 r.mapY)
    ++ Spec.leBytes 4 0 ++ Spec.leBytes 4 nrows ++ Spec.leBytes 4 ncols
    ++ Spec.leBytes 4 (nrows * ncols * width)
    ++ r.pixels.flatMap (Spec.leBytes width)
    ++ (match version with
      | 0 => []
      | 1 => r.x ++ r.y
      | _ + 2 => [1] ++ r.x ++ [1] ++ r.y)

/-- What comes before the table of positions: the negative version as a 64-bit integer, from version
4 on followed by a byte. -/
def Spec.oxPrefix (extra : Byte) : ℕ → List Byte
  | 0 => []
  | 1 => Spec.leBytes 8 (2 ^ 64 - 1)
  | 2 => Spec.leBytes 8 (2 ^ 64 - 2)
  | 3 => Spec.leBytes 8 (2 ^ 64 - 3)
  | v + 4 => Spec.leBytes 8 (2 ^ 64 - (v + 4)) ++ [extra]

/-- The contents of a file: for every map position, in rows, where in the sequence of patterns in
the file its pattern is, if it is in the file. -/
structure Spec.OxContent where
  version : ℕ
  extra : Byte
  nrows : ℕ
  ncols : ℕ
  width : ℕ
  order : List (Option ℕ)
  records : List Spec.OxRecord
  rest : List Byte

/-- Byte position of the first pattern: after the table. -/
def Spec.OxContent.firstPos (c : Spec.OxContent) : ℕ :=
  (Spec.oxPrefix c.extra c.version).length + 8 * c.order.length

/-- The table of byte positions, zero for missing patterns: the position of the first pattern and
the lengths of the patterns before. -/
def Spec.OxContent.table (c : Spec.OxContent) : List ℕ :=
  c.order.map fun
    | none => 0
    | some k => c.firstPos
        + ((c.records.take k).map fun r => (r.bytes c.version c.nrows c.ncols c.width).length).sum

/-- The file. -/
def Spec.OxContent.file (c : Spec.OxContent) : List Byte :=
  Spec.oxPrefix c.extra c.version ++ c.table.flatMap (Spec.leBytes 8)
    ++ c.records.flatMap (Spec.OxRecord.bytes c.version c.nrows c.ncols c.width) ++ c.rest

/-- Numbers fit in the space given for them, there is a pattern, patterns have the right number of
pixels, and every pattern in the file belongs to exactly one map position. -/
structure Spec.OxContent.Valid (c : Spec.OxContent) : Prop where
  version : c.version < 2 ^ 63
  width : c.width = 1 ∨ c.width = 2
  bytes : c.nrows * c.ncols * c.width < 2 ^ 31
  shape : 0 < c.nrows ∧ 0 < c.ncols
  records : c.records ≠ []
  pixels : ∀ r ∈ c.records, r.pixels.length = c.nrows * c.ncols
  values : ∀ r ∈ c.records, ∀ v ∈ r.pixels, v < 256 ^ c.width
  beam : ∀ r ∈ c.records, r.x.length = 8 ∧ r.y.length = 8
  order : (c.order.filterMap id).Perm (List.range c.records.length)
  length : c.file.length < 2 ^ 63

end Kp
