import Verif.Block
import Verif.Compress
/-
What the readers reserve: the column readers of `Codec` once more, with a note of every reservation (`Vec::with_capacity(n)`, `vec![x; n]`) whose
size comes from the wire or from the column's type, in the order of the code. `Props/Reserve.lean` shows that leaving the notes out gives the readers
of `Codec`. Not noted: growth by pushing (in proportion to what was pushed), collecting what has been read (array.rs:67), and the room for the members
of one row of a tuple, which is reserved once for a column (tuple.rs:31).
-/
namespace Klick

/-- A reader that notes what it reserves: how many elements each time. The notes stay when it fails, klickhouse/src/io.rs:33-50. -/
def Tr (α : Type) := Bytes → List Nat × Res (α × Bytes)

namespace Tr
variable {α β : Type}

/-- One after the other, klickhouse/src/io.rs:33-50. -/
protected def bind (x : Tr α) (f : α → Tr β) : Tr β := fun s =>
  match (x s).2 with
  | .ok (a, s') => ((x s).1 ++ (f a s').1, (f a s').2)
  | .err e => ((x s).1, .err e)
  | .panic => ((x s).1, .panic)

instance : Monad Tr where
  pure a := fun s => ([], .ok (a, s))
  bind := Tr.bind

/-- A reader that reserves nothing, klickhouse/src/io.rs:20-31. -/
def plain (x : Rd α) : Tr α := fun s => ([], x s)

/-- Room for `n` elements is reserved, klickhouse/src/io.rs:43. -/
def note (n : Nat) : Tr Unit := fun s => ([n], .ok ((), s))

/-- Leave the notes out, klickhouse/src/io.rs:33-50. -/
def run (x : Tr α) : Rd α := fun s => (x s).2

/-- `n` times, klickhouse/src/types/deserialize/string.rs:20-22. -/
def rep : Nat → Tr α → Tr (List α)
  | 0, _ => pure []
  | n + 1, x => x >>= fun a => rep n x >>= fun as => pure (a :: as)

end Tr

/-- The size guard at the top of `deserialize_column`, klickhouse/src/types/mod.rs:676-680. -/
def guardTr {α : Type} (rows : Nat) (body : Tr α) : Tr α :=
  if rows > maxStringSize then Tr.plain (Rd.fail .protocol) else body

/-- `read_string`, klickhouse/src/io.rs:33-50: room for the announced length is reserved before the bytes are read. -/
def readStringTr : Tr Bytes :=
  Tr.plain readVarUint >>= fun len =>
  if len > maxStringSize then Tr.plain (Rd.fail .protocol)
  else if len = 0 then pure []
  else Tr.note len >>= fun _ => Tr.plain (readExact len)

/-- `StringDeserializer::read` for `String`, klickhouse/src/types/deserialize/string.rs:18-24. -/
def deStringsTr (rows : Nat) : Tr (List Value) :=
  Tr.note rows >>= fun _ => Tr.rep rows (readStringTr >>= fun b => pure (.string b))

/-- `StringDeserializer::read` for `FixedString`, klickhouse/src/types/deserialize/string.rs:25-36. -/
def deFixedTr (n rows : Nat) : Tr (List Value) :=
  Tr.note rows >>= fun _ => Tr.rep rows (if n > maxAlloc then Tr.plain Rd.panic
    else Tr.note n >>= fun _ => Tr.plain (readExact n) >>= fun b => pure (.string (cutAtNul b)))

/-- `SizedDeserializer::read`, klickhouse/src/types/deserialize/sized.rs:16-82. -/
def deSizedTr (cfg : Cfg) (t : Ty) (rows : Nat) : Tr (List Value) :=
  Tr.note rows >>= fun _ => Tr.plain (deSized cfg t rows)

/-- The generic array reader, klickhouse/src/types/deserialize/array.rs:44-71; line 62 reserves. -/
def deArrTr {α : Type} (cfg : Cfg) (inner : Nat → Tr (List α)) (rows : Nat) : Tr (List (List α)) :=
  if rows = 0 then pure []
  else
    Tr.plain (Rd.rep rows readU64) >>= fun offsets =>
    inner (offsets.getLastD 0) >>= fun items =>
    Tr.note rows >>= fun _ => Tr.plain (Rd.lift (splitOffsets cfg 0 offsets items))

/-- `PointDeserializer::read`, klickhouse/src/types/deserialize/geo.rs:21-47: the points, and a `Float64` column twice. -/
def dePtsTr (rows : Nat) : Tr (List Pt) :=
  guardTr rows (
    Tr.note rows >>= fun _ =>
    (Tr.note rows >>= fun _ => Tr.plain (Rd.rep rows (readLe 8 64))) >>= fun xs =>
    (Tr.note rows >>= fun _ => Tr.plain (Rd.rep rows (readLe 8 64))) >>= fun ys =>
    pure (List.zipWith Pt.mk xs ys))

/-- `RingDeserializer`, klickhouse/src/types/deserialize/geo.rs:72. -/
def deRingsTr (cfg : Cfg) (rows : Nat) : Tr (List (List Pt)) := guardTr rows (deArrTr cfg dePtsTr rows)
/-- `PolygonDeserializer`, klickhouse/src/types/deserialize/geo.rs:73. -/
def dePolygonsTr (cfg : Cfg) (rows : Nat) : Tr (List (List (List Pt))) := guardTr rows (deArrTr cfg (deRingsTr cfg) rows)
/-- `MultiPolygonDeserializer`, klickhouse/src/types/deserialize/geo.rs:74. -/
def deMultiPolygonsTr (cfg : Cfg) (rows : Nat) : Tr (List (List (List (List Pt)))) := guardTr rows (deArrTr cfg (dePolygonsTr cfg) rows)

/-- `MapDeserializer::read`, klickhouse/src/types/deserialize/map.rs:30-81; lines 50 and 68 reserve. -/
def deMapTr (key value : Nat → Tr (List Value)) (rows : Nat) : Tr (List Value) :=
  if rows = 0 then pure []
  else
    Tr.note rows >>= fun _ =>
    Tr.plain (Rd.rep rows readU64) >>= fun offsets =>
    let total := offsets.getLastD 0
    key total >>= fun ks =>
    if ks.length ≠ total then Tr.plain Rd.panic
    else value total >>= fun vs =>
      if vs.length ≠ total then Tr.plain Rd.panic
      else Tr.note rows >>= fun _ => Tr.plain (Rd.lift (splitMap 0 offsets ks vs))

/-- The loop of `LowCardinalityDeserializer::read`, klickhouse/src/types/deserialize/low_cardinality.rs:48-177; the indices are read as a column
(line 96). -/
def lcLoopTr (dict : Nat → Tr (List Value)) (nullable : Bool) : Nat → Nat → Option (List Value) → List Value → Tr (List Value)
  | 0, _, _, _ => Tr.plain (Rd.fail .io)
  | fuel + 1, limit, global, out =>
    if limit = 0 then pure out
    else
      Tr.plain readU64 >>= fun flags =>
      let hasAdd := flags &&& 0x200 != 0
      let needsGlobal := flags &&& 0x100 != 0
      let needsUpdate := flags &&& 0x400 != 0
      match lcWidth flags with
      | none => Tr.plain (Rd.fail (.deserialize ("LowCardinality: bad index type".toList)))
      | some width =>
        (if needsGlobal && (global.isNone || needsUpdate) then
            Tr.plain readU64 >>= fun n => dict n >>= fun d => pure (some d)
          else pure global) >>= fun global' =>
        (if hasAdd then Tr.plain readU64 >>= fun n => dict n else pure []) >>= fun add =>
        Tr.plain readU64 >>= fun pending =>
        let reading := min limit pending
        guardTr reading (Tr.note reading >>= fun _ => Tr.plain (Rd.rep reading (readExact width >>= fun b => pure (unLe b))))
          >>= fun idx =>
        Tr.plain (if hasAdd || needsGlobal then
            Rd.lift (Res.mapL (lcResolve nullable hasAdd needsGlobal add (global'.getD [])) idx)
          else pure []) >>= fun vals =>
        lcLoopTr dict nullable fuel (limit - reading) global' (out ++ vals)

/-- `LowCardinalityDeserializer::read`, klickhouse/src/types/deserialize/low_cardinality.rs:26-183. -/
def deLcTr (dict : Nat → Tr (List Value)) (nullable : Bool) (rows : Nat) : Tr (List Value) :=
  fun s => lcLoopTr dict nullable (s.length + 1) rows none [] s

mutual
/-- `Type::deserialize_column`, klickhouse/src/types/mod.rs:667-736; the reservations of tuples and nullable columns are in tuple.rs:31 and
nullable.rs:31. -/
def deColTr (cfg : Cfg) : Ty → Nat → Tr (List Value)
  | .string => fun rows => guardTr rows (deStringsTr rows)
  | .fixedString n => fun rows => guardTr rows (deFixedTr n rows)
  | .array t => fun rows => guardTr rows (deArrTr cfg (deColTr cfg t) rows >>= fun xss => pure (xss.map .array))
  | .tuple ts => fun rows => guardTr rows (
      Tr.note rows >>= fun _ => deColsTr cfg ts rows (List.replicate rows []) >>= fun rs => pure (rs.map .tuple))
  | .point => fun rows => dePtsTr rows >>= fun ps => pure (ps.map .point)
  | .ring => fun rows => deRingsTr cfg rows >>= fun ps => pure (ps.map .ring)
  | .polygon => fun rows => dePolygonsTr cfg rows >>= fun ps => pure (ps.map .polygon)
  | .multiPolygon => fun rows => deMultiPolygonsTr cfg rows >>= fun ps => pure (ps.map .multiPolygon)
  | .nullable t => fun rows => guardTr rows (
      Tr.note rows >>= fun _ =>
      Tr.plain (readExact rows) >>= fun mask =>
      deColTr cfg t rows >>= fun out =>
      Tr.plain (Rd.lift (applyMask mask out)))
  | .map k v => fun rows => guardTr rows (deMapTr (deColTr cfg k) (deColTr cfg v) rows)
  | .lowCardinality (.nullable t) => fun rows => guardTr rows (deLcTr (deColTr cfg t) true rows)
  | .lowCardinality t => fun rows => guardTr rows (deLcTr (deColTr cfg t) false rows)
  | t => fun rows => guardTr rows (deSizedTr cfg t rows)
/-- The loop over member types, klickhouse/src/types/deserialize/tuple.rs:32-46. -/
def deColsTr (cfg : Cfg) : List Ty → Nat → List (List Value) → Tr (List (List Value))
  | [] => fun _ acc => pure acc
  | t :: ts => fun rows acc =>
    deColTr cfg t rows >>= fun vs =>
    Tr.plain (Rd.lift (pushCol acc vs)) >>= fun acc' =>
    deColsTr cfg ts rows acc'
end

/-- `read_compressed_blob`, klickhouse/src/compression.rs:66-106: line 93 reserves the announced size before the body is read, line 43 the announced
size of the contents. -/
def readFrameTr (lz : Lz4) (method : Byte) : Tr Bytes :=
  Tr.plain (readLe 8 64) >>= fun hi => Tr.plain (readLe 8 64) >>= fun lo =>
  let checksum : BitVec 128 := (hi.setWidth 128 <<< 64) ||| lo.setWidth 128
  Tr.plain readU8 >>= fun typeByte =>
  if typeByte ≠ method then Tr.plain (Rd.fail .protocol)
  else Tr.plain (readLe 4 32) >>= fun size =>
    if size.toNat > maxCompressionSize then Tr.plain (Rd.fail .protocol)
    else if size.toNat < 9 then Tr.plain (Rd.fail .protocol)
    else Tr.plain (readLe 4 32) >>= fun rawSize =>
      Tr.note size.toNat >>= fun _ =>
      Tr.plain (readExact (size.toNat - 9)) >>= fun body =>
      let compressed := typeByte :: (le 4 size.toNat ++ le 4 rawSize.toNat ++ body)
      if lz.hash compressed ≠ checksum then Tr.plain (Rd.fail .protocol)
      else Tr.note (rawSize.toNat + 1) >>= fun _ => Tr.plain (Rd.lift (decompressBlock lz body rawSize.toNat))

end Klick
