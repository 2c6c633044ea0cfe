import Verif.Values
/-
Column codecs: klickhouse/src/types/serialize/*, klickhouse/src/types/deserialize/*.

Writers return the bytes they emit or a panic (the only errors a writer can report are I/O errors of
the transport, which are not modelled). Readers consume a byte list.
-/
namespace Klick

/-- Big-endian bytes of a number (`to_be_bytes`, the layout of `i256.0`, `Ipv6Addr::octets`), klickhouse/src/types/serialize/sized.rs:22-57. -/
def be (n x : Nat) : Bytes := (le n x).reverse
/-- Number of a big-endian byte string (`from_be_bytes`), klickhouse/src/types/deserialize/sized.rs:24-79. -/
def unBe (bs : Bytes) : Nat := unLe bs.reverse

/-! ### fixed-width values -/

/-- One value, klickhouse/src/types/serialize/sized.rs:22-57. The writer looks at the value, not at
the type. `swap_endian_256` (sized.rs:9-12) reverses the big-endian array. -/
def serSized1 (cfg : Cfg) : Value → Res Bytes
  | .int8 x => .ok (le 1 x.toNat)
  | .int16 x => .ok (le 2 x.toNat)
  | .int32 x => .ok (le 4 x.toNat)
  | .int64 x => .ok (le 8 x.toNat)
  | .int128 x => .ok (le 16 x.toNat)
  | .int256 x => .ok (be 32 x.toNat).reverse
  | .uint8 x => .ok (le 1 x.toNat)
  | .uint16 x => .ok (le 2 x.toNat)
  | .uint32 x => .ok (le 4 x.toNat)
  | .uint64 x => .ok (le 8 x.toNat)
  | .uint128 x => .ok (le 16 x.toNat)
  | .uint256 x => .ok (be 32 x.toNat).reverse
  | .float32 x => .ok (le 4 x.toNat)
  | .float64 x => .ok (le 8 x.toNat)
  | .bfloat16 x => if cfg.bf16 then .ok (le 2 x.toNat) else .panic
  | .decimal32 _ x => .ok (le 4 x.toNat)
  | .decimal64 _ x => .ok (le 8 x.toNat)
  | .decimal128 _ x => .ok (le 16 x.toNat)
  | .decimal256 _ x => .ok (be 32 x.toNat).reverse
  | .uuid x => .ok (le 8 (x >>> 64).toNat ++ le 8 x.toNat)
  | .date x => .ok (le 2 x.toNat)
  | .dateTime _ x => .ok (le 4 x.toNat)
  | .dateTime64 _ x _ => .ok (le 8 x.toNat)
  | .ipv4 x => .ok (le 4 x.toNat)
  | .ipv6 x => .ok (be 16 x.toNat)
  | .enum8 x => .ok (le 1 x.toNat)
  | .enum16 x => .ok (le 2 x.toNat)
  | _ => .panic

/-- `SizedSerializer::write`, klickhouse/src/types/serialize/sized.rs:15-60. -/
def serSized (cfg : Cfg) (t : Ty) (vs : List Value) : Res Bytes :=
  Res.mapL (fun v => v.justifyNull cfg t >>= serSized1 cfg) vs >>= fun bss => .ok bss.flatten

/-- One value, klickhouse/src/types/deserialize/sized.rs:24-79. -/
def deSized1 (cfg : Cfg) : Ty → Rd Value
  | .int8 => readLe 1 8 >>= fun x => pure (.int8 x)
  | .int16 => readLe 2 16 >>= fun x => pure (.int16 x)
  | .int32 => readLe 4 32 >>= fun x => pure (.int32 x)
  | .int64 => readLe 8 64 >>= fun x => pure (.int64 x)
  | .int128 => readLe 16 128 >>= fun x => pure (.int128 x)
  | .int256 => readExact 32 >>= fun buf => pure (.int256 (BitVec.ofNat 256 (unBe buf.reverse)))
  | .uint8 => readLe 1 8 >>= fun x => pure (.uint8 x)
  | .uint16 => readLe 2 16 >>= fun x => pure (.uint16 x)
  | .uint32 => readLe 4 32 >>= fun x => pure (.uint32 x)
  | .uint64 => readLe 8 64 >>= fun x => pure (.uint64 x)
  | .uint128 => readLe 16 128 >>= fun x => pure (.uint128 x)
  | .uint256 => readExact 32 >>= fun buf => pure (.uint256 (BitVec.ofNat 256 (unBe buf.reverse)))
  | .float32 => readLe 4 32 >>= fun x => pure (.float32 x)
  | .float64 => readLe 8 64 >>= fun x => pure (.float64 x)
  | .bfloat16 => readLe 2 16 >>= fun x => if cfg.bf16 then pure (.bfloat16 x) else Rd.panic
  | .decimal32 s => readLe 4 32 >>= fun x => pure (.decimal32 s x)
  | .decimal64 s => readLe 8 64 >>= fun x => pure (.decimal64 s x)
  | .decimal128 s => readLe 16 128 >>= fun x => pure (.decimal128 s x)
  | .decimal256 s =>
    readExact 32 >>= fun buf => pure (.decimal256 s (BitVec.ofNat 256 (unBe buf.reverse)))
  | .uuid => readLe 8 64 >>= fun n1 => readLe 8 64 >>= fun n2 =>
      pure (.uuid ((n1.setWidth 128 <<< 64) ||| n2.setWidth 128))
  | .date => readLe 2 16 >>= fun x => pure (.date x)
  | .dateTime tz => readLe 4 32 >>= fun x => pure (.dateTime tz x)
  | .ipv4 => readLe 4 32 >>= fun x => pure (.ipv4 x)
  | .ipv6 => readExact 16 >>= fun o => pure (.ipv6 (BitVec.ofNat 128 (unBe o)))
  | .dateTime64 p tz => readLe 8 64 >>= fun x => pure (.dateTime64 tz x p)
  | .enum8 _ => readLe 1 8 >>= fun x => pure (.enum8 x)
  | .enum16 _ => readLe 2 16 >>= fun x => pure (.enum16 x)
  | _ => Rd.panic

/-- `SizedDeserializer::read`, klickhouse/src/types/deserialize/sized.rs:16-82. -/
def deSized (cfg : Cfg) (t : Ty) (rows : Nat) : Rd (List Value) := Rd.rep rows (deSized1 cfg t)

/-! ### strings -/

/-- `emit_bytes`, klickhouse/src/types/serialize/string.rs:9-24. -/
def emitBytes : Ty → Bytes → Bytes
  | .fixedString s, bytes =>
    if bytes.length ≥ s then bytes.take s
    else bytes ++ List.replicate (s - bytes.length) 0#8
  | _, bytes => writeString bytes

/-- The byte conversion of klickhouse/src/types/serialize/string.rs:42-46. -/
def asByte : Value → Res Byte
  | .uint8 x => .ok x
  | .int8 x => .ok x
  | _ => .panic

/-- One value, klickhouse/src/types/serialize/string.rs:34-51, after `justify_null_ref`. -/
def serString1 (t : Ty) : Value → Res Bytes
  | .string b => .ok (emitBytes t b)
  | .array items => Res.mapL asByte items >>= fun b => .ok (emitBytes t b)
  | _ => .panic

/-- `StringSerializer::write`, klickhouse/src/types/serialize/string.rs:26-55. -/
def serStrings (cfg : Cfg) (t : Ty) (vs : List Value) : Res Bytes :=
  Res.mapL (fun v => v.justifyNull cfg t >>= serString1 t) vs >>= fun bss => .ok bss.flatten

/-- `buf.truncate(first_null)`, klickhouse/src/types/deserialize/string.rs:31-32. -/
def cutAtNul (b : Bytes) : Bytes := b.takeWhile (fun x => x != 0#8)

/-- `StringDeserializer::read` for `String`, klickhouse/src/types/deserialize/string.rs:18-24. -/
def deStrings (rows : Nat) : Rd (List Value) :=
  Rd.rep rows (readString >>= fun b => pure (.string b))

/-- `isize::MAX` on a 64-bit target: reserving more bytes than this at once panics (`Vec::with_capacity`, "capacity overflow"),
klickhouse/src/types/deserialize/array.rs:44-71. -/
def maxAlloc : Nat := 2 ^ 63 - 1

/-- `StringDeserializer::read` for `FixedString`, klickhouse/src/types/deserialize/string.rs:25-36. The buffer is reserved before
anything is read (line 28). The other reservations of the readers are bounded by `guardRows` and by `readString`. -/
def deFixed (n rows : Nat) : Rd (List Value) :=
  Rd.rep rows (if n > maxAlloc then Rd.panic else readExact n >>= fun b => pure (.string (cutAtNul b)))

/-! ### arrays, maps -/

/-- The offset loop of klickhouse/src/types/serialize/array.rs:43-47 and map.rs:47-50: running
totals of the lengths, starting from `acc`. -/
def offsetsFrom (acc : Nat) : List Nat → Bytes
  | [] => []
  | n :: ns => writeU64 (acc + n) ++ offsetsFrom (acc + n) ns

/-- `Value::unwrap_array`, klickhouse/src/values/mod.rs:214-226. -/
def Value.unwrapArray : Value → Res (List Value)
  | .array a => .ok a
  | _ => .panic

/-- `Value::unwrap_tuple`, klickhouse/src/values/mod.rs:228-233. -/
def Value.unwrapTuple : Value → Res (List Value)
  | .tuple a => .ok a
  | _ => .panic

/-- The destructuring and `assert_eq!` of klickhouse/src/types/serialize/map.rs:43-47. -/
def Value.unwrapMap : Value → Res (List Value × List Value)
  | .map ks vs => if ks.length = vs.length then .ok (ks, vs) else .panic
  | _ => .panic

/-- The row loop `columns[i].push(value)` of klickhouse/src/types/serialize/tuple.rs:40-42 for one
row: push the row's members onto the columns; a row longer than the number of columns indexes out of
bounds, a shorter one leaves the remaining columns as they are. -/
def pushRow : List (List Value) → List Value → Res (List (List Value))
  | cols, [] => .ok cols
  | [], _ :: _ => .panic
  | c :: cols, v :: vs => pushRow cols vs >>= fun cols' => .ok ((c ++ [v]) :: cols')

/-- Row loop over all rows, klickhouse/src/types/serialize/tuple.rs:38-43. -/
def pushRows : List (List Value) → List (List Value) → Res (List (List Value))
  | cols, [] => .ok cols
  | cols, r :: rs => pushRow cols r >>= fun cols' => pushRows cols' rs

/-- `PointSerializer::write`, klickhouse/src/types/serialize/geo.rs:19-43, on unwrapped points: the
x column then the y column, each a `Float64` column. -/
def serPts (ps : List Pt) : Bytes :=
  (ps.map (fun p => le 8 p.x.toNat)).flatten ++ (ps.map (fun p => le 8 p.y.toNat)).flatten

/-- The generic array writer (klickhouse/src/types/serialize/array.rs:36-54) for the geo types
(geo.rs:46-76), whose elements are written by `inner`. -/
def serArr {α : Type} (inner : List α → Bytes) (xss : List (List α)) : Bytes :=
  offsetsFrom 0 (xss.map List.length) ++ inner xss.flatten

/-- Destructuring in klickhouse/src/types/serialize/geo.rs:30-32 (anything else is `unreachable!`). -/
def Value.unwrapPoint : Value → Res Pt
  | .point p => .ok p
  | _ => .panic
/-- klickhouse/src/types/serialize/geo.rs:54-68 for `Ring`. -/
def Value.unwrapRing : Value → Res (List Pt)
  | .ring p => .ok p
  | _ => .panic
/-- klickhouse/src/types/serialize/geo.rs:54-68 for `Polygon`. -/
def Value.unwrapPolygon : Value → Res (List (List Pt))
  | .polygon p => .ok p
  | _ => .panic
/-- klickhouse/src/types/serialize/geo.rs:54-68 for `MultiPolygon`. -/
def Value.unwrapMultiPolygon : Value → Res (List (List (List Pt)))
  | .multiPolygon p => .ok p
  | _ => .panic

/-! ### LowCardinality writer -/

/-- `IndexSet::insert` (crate `indexmap`): append unless an equal key is present, klickhouse/src/types/serialize/low_cardinality.rs:40-47. -/
def keyInsert (keys : List Value) (v : Value) : List Value :=
  if keys.any (fun k => k.eqv v) then keys else keys ++ [v]

/-- The dictionary, klickhouse/src/types/serialize/low_cardinality.rs:40-47. -/
def lcKeys (nullable : Bool) (vs : List Value) : List Value :=
  vs.foldl keyInsert (if nullable then [.null] else [])

/-- Index type code, klickhouse/src/types/serialize/low_cardinality.rs:49-58. -/
def lcIndexCode (nkeys : Nat) : Nat :=
  if nkeys > 2 ^ 32 - 1 then 3 else if nkeys > 2 ^ 16 - 1 then 2 else if nkeys > 2 ^ 8 - 1 then 1 else 0

/-- Bytes per index, klickhouse/src/types/serialize/low_cardinality.rs:71-79. -/
def lcIndexWidth (nkeys : Nat) : Nat :=
  if nkeys > 2 ^ 32 - 1 then 8 else if nkeys > 2 ^ 16 - 1 then 4 else if nkeys > 2 ^ 8 - 1 then 2 else 1

/-- `keys.get_index_of(value).unwrap()` and the index write, klickhouse/src/types/serialize/low_cardinality.rs:69-80. -/
def lcIndex1 (keys : List Value) (v : Value) : Res Bytes :=
  match keys.findIdx? (fun k => k.eqv v) with
  | some i => .ok (le (lcIndexWidth keys.length) i)
  | none => .panic

/-- `LowCardinalitySerializer::write`, klickhouse/src/types/serialize/low_cardinality.rs:22-82, with
the writer of the stripped inner type as a parameter. `1 << 9` is `HAS_ADDITIONAL_KEYS_BIT`
(types/low_cardinality.rs:2). -/
def serLc (inner : List Value → Res Bytes) (nullable : Bool) (vs : List Value) : Res Bytes :=
  if vs.isEmpty then .ok []
  else
    let keys := lcKeys nullable vs
    inner keys >>= fun dict =>
    Res.mapL (lcIndex1 keys) vs >>= fun idx =>
    .ok (writeU64 (lcIndexCode keys.length ||| 1 <<< 9) ++ writeU64 keys.length ++ dict ++
      writeU64 vs.length ++ idx.flatten)

/-! ### whole columns, writer -/

mutual
/-- `Type::serialize_column`, klickhouse/src/types/mod.rs:738-806. -/
def serCol (cfg : Cfg) : Ty → List Value → Res Bytes
  | .string => fun vs => serStrings cfg .string vs
  | .fixedString n => fun vs => serStrings cfg (.fixedString n) vs
  -- ArraySerializer, types/serialize/array.rs:36-54
  | .array t => fun vs =>
    Res.mapL Value.unwrapArray vs >>= fun xss =>
    serCol cfg t xss.flatten >>= fun body =>
    .ok (offsetsFrom 0 (xss.map List.length) ++ body)
  -- TupleSerializer, types/serialize/tuple.rs:24-48
  | .tuple ts => fun vs =>
    Res.mapL Value.unwrapTuple vs >>= fun rows =>
    pushRows (List.replicate ts.length []) rows >>= fun cols =>
    serCols cfg ts cols
  | .point => fun vs => Res.mapL Value.unwrapPoint vs >>= fun ps => .ok (serPts ps)
  | .ring => fun vs => Res.mapL Value.unwrapRing vs >>= fun ps => .ok (serArr serPts ps)
  | .polygon => fun vs =>
    Res.mapL Value.unwrapPolygon vs >>= fun ps => .ok (serArr (serArr serPts) ps)
  | .multiPolygon => fun vs =>
    Res.mapL Value.unwrapMultiPolygon vs >>= fun ps => .ok (serArr (serArr (serArr serPts)) ps)
  -- NullableSerializer, types/serialize/nullable.rs:9-29
  | .nullable t => fun vs =>
    serCol cfg t vs >>= fun body =>
    .ok (vs.map (fun v => if v.isNull then 1#8 else 0#8) ++ body)
  -- MapSerializer, types/serialize/map.rs:28-60
  | .map k v => fun vs =>
    Res.mapL Value.unwrapMap vs >>= fun kvs =>
    serCol cfg k (kvs.map Prod.fst).flatten >>= fun kb =>
    serCol cfg v (kvs.map Prod.snd).flatten >>= fun vb =>
    .ok (offsetsFrom 0 (kvs.map (fun p => p.1.length)) ++ kb ++ vb)
  -- LowCardinalitySerializer with `strip_null`
  | .lowCardinality (.nullable t) => fun vs => serLc (serCol cfg t) true vs
  | .lowCardinality t => fun vs => serLc (serCol cfg t) false vs
  -- SizedSerializer
  | t => fun vs => serSized cfg t vs
/-- The zip of member types with columns, klickhouse/src/types/serialize/tuple.rs:44-46. -/
def serCols (cfg : Cfg) : List Ty → List (List Value) → Res Bytes
  | [] => fun _ => .ok []
  | t :: ts => fun cols =>
    match cols with
    | [] => .ok []
    | c :: cols => serCol cfg t c >>= fun b => serCols cfg ts cols >>= fun bs => .ok (b ++ bs)
end

mutual
/-- `Type::serialize_prefix`, klickhouse/src/types/mod.rs:808-871. `Nullable` has no `write_prefix`
of its own, so the default (nothing) applies; a map's prefix is that of `Array(Tuple(k, v))`
(types/serialize/map.rs:10-26), here unfolded. -/
def serPrefix : Ty → Bytes
  | .array t => serPrefix t
  | .tuple ts => serPrefixes ts
  | .map k v => serPrefix k ++ serPrefix v
  | .lowCardinality _ => writeU64 1
  | _ => []
/-- klickhouse/src/types/serialize/tuple.rs:15-17. -/
def serPrefixes : List Ty → Bytes
  | [] => []
  | t :: ts => serPrefix t ++ serPrefixes ts
end

/-! ### whole columns, reader -/

/-- The size guard at the top of `deserialize_column`, klickhouse/src/types/mod.rs:676-680. -/
def guardRows {α : Type} (rows : Nat) (body : Rd α) : Rd α :=
  if rows > maxStringSize then Rd.fail .protocol else body

/-- The splitting loop of klickhouse/src/types/deserialize/array.rs:62-68. `offset - read_offset`
underflows when offsets decrease: a panic with overflow checks, wrapping without. -/
def splitOffsets {α : Type} (cfg : Cfg) : Nat → List Nat → List α → Res (List (List α))
  | _, [], _ => .ok []
  | prev, o :: os, items =>
    if o < prev then
      if cfg.overflowChecks then .panic
      else
        let len := o + 2 ^ 64 - prev
        splitOffsets cfg o os (items.drop len) >>= fun r => .ok (items.take len :: r)
    else
      let len := o - prev
      splitOffsets cfg o os (items.drop len) >>= fun r => .ok (items.take len :: r)

/-- The generic array reader, klickhouse/src/types/deserialize/array.rs:44-71, with the reader of
the elements as a parameter. -/
def deArr {α : Type} (cfg : Cfg) (inner : Nat → Rd (List α)) (rows : Nat) : Rd (List (List α)) :=
  if rows = 0 then pure []
  else
    Rd.rep rows readU64 >>= fun offsets =>
    inner (offsets.getLastD 0) >>= fun items =>
    Rd.lift (splitOffsets cfg 0 offsets items)

/-- `PointDeserializer::read`, klickhouse/src/types/deserialize/geo.rs:21-47: two `Float64` columns
of `rows` values each, zipped. -/
def dePts (rows : Nat) : Rd (List Pt) :=
  guardRows rows (
    Rd.rep rows (readLe 8 64) >>= fun xs =>
    Rd.rep rows (readLe 8 64) >>= fun ys =>
    pure (List.zipWith Pt.mk xs ys))

/-- `RingDeserializer`, klickhouse/src/types/deserialize/geo.rs:72, within `deserialize_column`. -/
def deRings (cfg : Cfg) (rows : Nat) : Rd (List (List Pt)) := guardRows rows (deArr cfg dePts rows)
/-- `PolygonDeserializer`, klickhouse/src/types/deserialize/geo.rs:73. -/
def dePolygons (cfg : Cfg) (rows : Nat) : Rd (List (List (List Pt))) :=
  guardRows rows (deArr cfg (deRings cfg) rows)
/-- `MultiPolygonDeserializer`, klickhouse/src/types/deserialize/geo.rs:74. -/
def deMultiPolygons (cfg : Cfg) (rows : Nat) : Rd (List (List (List (List Pt)))) :=
  guardRows rows (deArr cfg (dePolygons cfg) rows)

/-- The masking loop of klickhouse/src/types/deserialize/nullable.rs:38-42; `out[i]` indexes out of
bounds when the inner column came back short. -/
def applyMask : List Byte → List Value → Res (List Value)
  | [], vs => .ok vs
  | m :: ms, v :: vs =>
    applyMask ms vs >>= fun r => .ok ((if m != 0#8 then .null else v) :: r)
  | m :: ms, [] => if m != 0#8 then .panic else applyMask ms []

/-- One member column pushed onto the rows, klickhouse/src/types/deserialize/tuple.rs:33-45;
`tuples[i]` indexes out of bounds when there are more values than rows. -/
def pushCol : List (List Value) → List Value → Res (List (List Value))
  | rows, [] => .ok rows
  | [], _ :: _ => .panic
  | r :: rows, v :: vs => pushCol rows vs >>= fun rows' => .ok ((r ++ [v]) :: rows')

/-- The row loop of klickhouse/src/types/deserialize/map.rs:66-79: `while last_offset < offset`
takes that many keys and values (`next().unwrap()` panics when they run out). -/
def splitMap : Nat → List Nat → List Value → List Value → Res (List Value)
  | _, [], _, _ => .ok []
  | last, o :: os, ks, vs =>
    let n := o - last
    if n > ks.length ∨ n > vs.length then .panic
    else
      splitMap (max last o) os (ks.drop n) (vs.drop n) >>= fun r =>
      .ok (.map (ks.take n) (vs.take n) :: r)

/-- `MapDeserializer::read`, klickhouse/src/types/deserialize/map.rs:30-81. -/
def deMap (key value : Nat → Rd (List Value)) (rows : Nat) : Rd (List Value) :=
  if rows = 0 then pure []
  else
    Rd.rep rows readU64 >>= fun offsets =>
    let total := offsets.getLastD 0
    key total >>= fun ks =>
    if ks.length ≠ total then Rd.panic
    else value total >>= fun vs =>
      if vs.length ≠ total then Rd.panic
      else Rd.lift (splitMap 0 offsets ks vs)

/-- Index width announced by the flags, klickhouse/src/types/deserialize/low_cardinality.rs:57-67. -/
def lcWidth (flags : Nat) : Option Nat :=
  match flags % 256 with
  | 0 => some 1
  | 1 => some 2
  | 2 => some 4
  | 3 => some 8
  | _ => none

/-- Resolution of one index, klickhouse/src/types/deserialize/low_cardinality.rs:105-176. `none`
when neither dictionary is announced: the entries are then dropped. -/
def lcResolve (nullable hasAdd needsGlobal : Bool) (add glob : List Value) (entry : Nat) :
    Res Value :=
  let bad : Res Value := .err (.deserialize ("LowCardinality: illegal index".toList))
  if hasAdd && !needsGlobal then
    if nullable && entry == 0 then .ok .null
    else match add[entry]? with
      | some v => .ok v
      | none => bad
  else if needsGlobal && !hasAdd then
    match glob[entry]? with
    | some v => .ok v
    | none => bad
  else
    if nullable && entry == 0 then .ok .null
    else if entry < add.length then
      match add[entry]? with
      | some v => .ok v
      | none => bad
    else
      match glob[entry - add.length]? with
      | some v => .ok v
      | none => bad

/-- The loop of `LowCardinalityDeserializer::read`,
klickhouse/src/types/deserialize/low_cardinality.rs:48-177. `num_pending_rows` is always 0 when the
loop test holds (the previous round took `min limit pending` rows), so each round reads a header.
`additional_keys` is re-read whenever it is used, so it is local here; `global` persists. The fuel
bounds the number of rounds by the number of bytes; every round consumes at least 16. -/
def lcLoop (dict : Nat → Rd (List Value)) (nullable : Bool) :
    Nat → Nat → Option (List Value) → List Value → Rd (List Value)
  | 0, _, _, _ => Rd.fail .io
  | fuel + 1, limit, global, out =>
    if limit = 0 then pure out
    else
      readU64 >>= fun flags =>
      let hasAdd := flags &&& 0x200 != 0
      let needsGlobal := flags &&& 0x100 != 0
      let needsUpdate := flags &&& 0x400 != 0
      match lcWidth flags with
      | none => Rd.fail (.deserialize ("LowCardinality: bad index type".toList))
      | some width =>
        (if needsGlobal && (global.isNone || needsUpdate) then
            readU64 >>= fun n => dict n >>= fun d => pure (some d)
          else pure global) >>= fun global' =>
        (if hasAdd then readU64 >>= fun n => dict n else pure []) >>= fun add =>
        readU64 >>= fun pending =>
        let reading := min limit pending
        guardRows reading (Rd.rep reading (readExact width >>= fun b => pure (unLe b)))
          >>= fun idx =>
        (if hasAdd || needsGlobal then
            Rd.lift (Res.mapL (lcResolve nullable hasAdd needsGlobal add (global'.getD [])) idx)
          else pure []) >>= fun vals =>
        lcLoop dict nullable fuel (limit - reading) global' (out ++ vals)

/-- `LowCardinalityDeserializer::read`, klickhouse/src/types/deserialize/low_cardinality.rs:26-183. -/
def deLc (dict : Nat → Rd (List Value)) (nullable : Bool) (rows : Nat) : Rd (List Value) :=
  fun s => lcLoop dict nullable (s.length + 1) rows none [] s

mutual
/-- `Type::deserialize_column`, klickhouse/src/types/mod.rs:667-736. -/
def deCol (cfg : Cfg) : Ty → Nat → Rd (List Value)
  | .string => fun rows => guardRows rows (deStrings rows)
  | .fixedString n => fun rows => guardRows rows (deFixed n rows)
  | .array t => fun rows => guardRows rows (
      deArr cfg (deCol cfg t) rows >>= fun xss => pure (xss.map .array))
  -- TupleDeserializer, types/deserialize/tuple.rs:24-48
  | .tuple ts => fun rows => guardRows rows (
      deCols cfg ts rows (List.replicate rows []) >>= fun rs => pure (rs.map .tuple))
  | .point => fun rows => dePts rows >>= fun ps => pure (ps.map .point)
  | .ring => fun rows => deRings cfg rows >>= fun ps => pure (ps.map .ring)
  | .polygon => fun rows => dePolygons cfg rows >>= fun ps => pure (ps.map .polygon)
  | .multiPolygon => fun rows => deMultiPolygons cfg rows >>= fun ps => pure (ps.map .multiPolygon)
  -- NullableDeserializer, types/deserialize/nullable.rs:24-45
  | .nullable t => fun rows => guardRows rows (
      readExact rows >>= fun mask =>
      deCol cfg t rows >>= fun out =>
      Rd.lift (applyMask mask out))
  | .map k v => fun rows => guardRows rows (deMap (deCol cfg k) (deCol cfg v) rows)
  | .lowCardinality (.nullable t) => fun rows => guardRows rows (deLc (deCol cfg t) true rows)
  | .lowCardinality t => fun rows => guardRows rows (deLc (deCol cfg t) false rows)
  | t => fun rows => guardRows rows (deSized cfg t rows)
/-- The loop over member types, klickhouse/src/types/deserialize/tuple.rs:32-46. -/
def deCols (cfg : Cfg) : List Ty → Nat → List (List Value) → Rd (List (List Value))
  | [] => fun _ acc => pure acc
  | t :: ts => fun rows acc =>
    deCol cfg t rows >>= fun vs =>
    Rd.lift (pushCol acc vs) >>= fun acc' =>
    deCols cfg ts rows acc'
end

mutual
/-- `Type::deserialize_prefix`, klickhouse/src/types/mod.rs:598-665. Unlike the writer, `Nullable`
delegates to its inner type (types/deserialize/nullable.rs:10-22). -/
def dePrefix : Ty → Rd Unit
  | .array t => dePrefix t
  | .tuple ts => dePrefixes ts
  | .nullable t => dePrefix t
  | .map k v => dePrefix k >>= fun _ => dePrefix v
  -- types/deserialize/low_cardinality.rs:12-24
  | .lowCardinality _ => readU64 >>= fun v =>
      if v ≠ 1 then Rd.fail (.deserialize ("LowCardinality: invalid version".toList)) else pure ()
  | _ => pure ()
/-- klickhouse/src/types/deserialize/tuple.rs:15-17. -/
def dePrefixes : List Ty → Rd Unit
  | [] => pure ()
  | t :: ts => dePrefix t >>= fun _ => dePrefixes ts
end

end Klick
