import Verif.Codec
import Verif.Text
import Verif.Convert
import Verif.Sql
import Verif.Geo
/-
The crate's own unit tests (klickhouse/src/types/tests.rs, values/tests.rs, query/select.rs, values/geo.rs), evaluated on the model; those of
query_parser.rs are in Props/Lexer. They prove nothing the theorems do not, but the tests were written against the program, so they check the transcription.
-/
set_option maxRecDepth 100000

namespace Klick.UnitTests
open Klick

/-- The build of the tests: overflow checks, all features. -/
def cfg : Cfg := ⟨true, true, fun _ => true, fun _ => false, fun _ => false⟩

/-- `Value::string`, klickhouse/src/values/mod.rs. -/
def str (s : Str) : Value := .string (utf8Encode s)

/-- `roundtrip_values`, klickhouse/src/types/tests.rs:16-36. -/
def roundtrip (t : Ty) (vs : List Value) : Res (List Value) :=
  serCol cfg t vs >>= fun body => 
    ((dePrefix t >>= fun _ => deCol cfg t vs.length) : Rd (List Value)) (serPrefix t ++ body) >>= fun p => .ok p.1

/-- The values come back. -/
def RoundTrips (t : Ty) (vs : List Value) : Prop := roundtrip t vs = .ok vs

/-- `roundtrip_u8`, klickhouse/src/types/tests.rs:39-45. -/
example : RoundTrips .uint8 [.uint8 12, .uint8 24, .uint8 30] := rfl

/-- `roundtrip_u16`, klickhouse/src/types/tests.rs:48-54. -/
example : RoundTrips .uint16 [.uint16 12, .uint16 24, .uint16 30000] := rfl

/-- `roundtrip_u32`, klickhouse/src/types/tests.rs:57-63. -/
example : RoundTrips .uint32 [.uint32 12, .uint32 24, .uint32 900000] := rfl

/-- `roundtrip_u64`, klickhouse/src/types/tests.rs:66-76. -/
example : RoundTrips .uint64 [.uint64 12, .uint64 24, .uint64 9000000000] := rfl

/-- `roundtrip_u128`, klickhouse/src/types/tests.rs:79-90. -/
example : RoundTrips .uint128 [.uint128 12, .uint128 24, .uint128 9000000000, .uint128 81000000000000000000] := rfl

/-- `roundtrip_u256`, klickhouse/src/types/tests.rs:93-102. -/
example : RoundTrips .uint256 [.uint256 0x0000000000000000000000000000000000000000000000000000000000000000, .uint256 0x0707070707070707070707070707070707070707070707070707070707070707] := rfl

/-- `roundtrip_i8`, klickhouse/src/types/tests.rs:105-116. -/
example : RoundTrips .int8 [.int8 12, .int8 24, .int8 30, .int8 (-30)] := rfl

/-- `roundtrip_i16`, klickhouse/src/types/tests.rs:119-130. -/
example : RoundTrips .int16 [.int16 12, .int16 24, .int16 30000, .int16 (-30000)] := rfl

/-- `roundtrip_i32`, klickhouse/src/types/tests.rs:133-144. -/
example : RoundTrips .int32 [.int32 12, .int32 24, .int32 900000, .int32 (-900000)] := rfl

/-- `roundtrip_i64`, klickhouse/src/types/tests.rs:147-158. -/
example : RoundTrips .int64 [.int64 12, .int64 24, .int64 9000000000, .int64 (-9000000000)] := rfl

/-- `roundtrip_i128`, klickhouse/src/types/tests.rs:161-173. -/
example : RoundTrips .int128 [.int128 12, .int128 24, .int128 9000000000, .int128 81000000000000000000, .int128 (-81000000000000000000)] := rfl

/-- `roundtrip_i256`, klickhouse/src/types/tests.rs:176-185. -/
example : RoundTrips .int256 [.int256 0x0000000000000000000000000000000000000000000000000000000000000000, .int256 0x0707070707070707070707070707070707070707070707070707070707070707] := rfl

/-- `roundtrip_f32`, klickhouse/src/types/tests.rs:188-204. -/
example : RoundTrips .float32 [.float32 1065353216, .float32 0, .float32 1120403456, .float32 1203982336, .float32 1232348160, .float32 3379831808, .float32 2143289344, .float32 2139095040, .float32 4286578688] := rfl

/-- `roundtrip_f64`, klickhouse/src/types/tests.rs:207-223. -/
example : RoundTrips .float64 [.float64 4607182418800017408, .float64 0, .float64 4636737291354636288, .float64 4681608360884174848, .float64 4696837146684686336, .float64 13920209183539462144, .float64 9221120237041090560, .float64 9218868437227405312, .float64 18442240474082181120] := rfl

/-- `roundtrip_bf16`, klickhouse/src/types/tests.rs:227-245. -/
example : RoundTrips .bfloat16 [.bfloat16 16256, .bfloat16 0, .bfloat16 17096, .bfloat16 18371, .bfloat16 18804, .bfloat16 51572, .bfloat16 32704, .bfloat16 32640, .bfloat16 65408] := rfl

/-- `roundtrip_d32`, klickhouse/src/types/tests.rs:248-261. -/
example : RoundTrips (.decimal32 5) [.decimal32 5 12, .decimal32 5 24, .decimal32 5 900000, .decimal32 5 (-900000)] := rfl

/-- `roundtrip_d64`, klickhouse/src/types/tests.rs:264-277. -/
example : RoundTrips (.decimal64 5) [.decimal64 5 12, .decimal64 5 24, .decimal64 5 9000000000, .decimal64 5 (-9000000000)] := rfl

/-- `roundtrip_d128`, klickhouse/src/types/tests.rs:280-294. -/
example : RoundTrips (.decimal128 5) [.decimal128 5 12, .decimal128 5 24, .decimal128 5 9000000000, .decimal128 5 81000000000000000000, .decimal128 5 (-81000000000000000000)] := rfl

/-- `roundtrip_d256`, klickhouse/src/types/tests.rs:297-308. -/
example : RoundTrips (.decimal256 5) [.decimal256 5 0x0000000000000000000000000000000000000000000000000000000000000000, .decimal256 5 0x0707070707070707070707070707070707070707070707070707070707070707] := rfl

/-- `roundtrip_null_int`, klickhouse/src/types/tests.rs:311-326. -/
example : RoundTrips (.nullable .uint32) [.uint32 35, .uint32 90, .null, .uint32 120, .uint32 10000, .null] := rfl

/-- `roundtrip_string`, klickhouse/src/types/tests.rs:329-353. -/
example : RoundTrips .string [str (ch! ""), str (ch! "t"), str (ch! "test"), str (ch! "TESTST"), str (ch! "日本語")] := rfl

/-- `roundtrip_string`, klickhouse/src/types/tests.rs:329-353. -/
example : RoundTrips (.fixedString 32) [str (ch! ""), str (ch! "t"), str (ch! "test"), str (ch! "TESTST"), str (ch! "日本語")] := rfl

/-- `roundtrip_string`, klickhouse/src/types/tests.rs:329-353. -/
example : ¬ RoundTrips (.fixedString 3) [str (ch! ""), str (ch! "t"), str (ch! "test"), str (ch! "TESTST"), str (ch! "日本語")] := by
  intro h
  cases h

/-- `roundtrip_null_string`, klickhouse/src/types/tests.rs:356-373. -/
example : RoundTrips (.nullable .string) [str (ch! ""), .null, str (ch! "t"), str (ch! "test"), .null, str (ch! "TESTST"), str (ch! "日本語"), .null] := rfl

/-- `roundtrip_uuid`, klickhouse/src/types/tests.rs:376-386. -/
example : RoundTrips .uuid [.uuid 0, .uuid 1, .uuid 456345634563456] := rfl

/-- `roundtrip_date`, klickhouse/src/types/tests.rs:389-399. -/
example : RoundTrips .date [.date 0, .date 3234, .date 45345] := rfl

/-- `roundtrip_datetime`, klickhouse/src/types/tests.rs:402-414. -/
example : RoundTrips (.dateTime (ch! "UTC")) [.dateTime (ch! "UTC") 0, .dateTime (ch! "UTC") 323463434, .dateTime (ch! "UTC") 45345345] := rfl

/-- `roundtrip_datetime64`, klickhouse/src/types/tests.rs:417-429. -/
example : RoundTrips (.dateTime64 3 (ch! "UTC")) [.dateTime64 (ch! "UTC") 0 3, .dateTime64 (ch! "UTC") 32346345634 3, .dateTime64 (ch! "UTC") 4534564345 3] := rfl

/-- `roundtrip_array`, klickhouse/src/types/tests.rs:434-446. -/
example : RoundTrips (.array .uint32) [.array [], .array [.uint32 0], .array [.uint32 1, .uint32 2, .uint32 3]] := rfl

/-- `roundtrip_array2`, klickhouse/src/types/tests.rs:449-472. -/
example : RoundTrips (.array (.array .uint32)) [.array [.array []], .array [.array [.uint32 1]], .array [.array [.uint32 2], .array [.uint32 3]], .array [.array [.uint32 4, .uint32 5], .array [.uint32 6, .uint32 7]], .array [.array [.uint32 8]]] := rfl

/-- `roundtrip_tuple`, klickhouse/src/types/tests.rs:475-487. -/
example : RoundTrips (.tuple [.uint32, .uint16]) [.tuple [.uint32 1, .uint16 2], .tuple [.uint32 3, .uint16 4], .tuple [.uint32 4, .uint16 5]] := rfl

/-- `roundtrip_2tuple`, klickhouse/src/types/tests.rs:490-517. -/
example : RoundTrips (.tuple [.uint32, (.tuple [.uint32, .uint16])]) [.tuple [.uint32 1, .tuple [.uint32 1, .uint16 2]], .tuple [.uint32 3, .tuple [.uint32 3, .uint16 4]], .tuple [.uint32 4, .tuple [.uint32 4, .uint16 5]]] := rfl

/-- `roundtrip_array_tuple`, klickhouse/src/types/tests.rs:520-538. -/
example : RoundTrips (.array (.tuple [.uint32, .uint16])) [.array [.tuple [.uint32 1, .uint16 2], .tuple [.uint32 3, .uint16 4]], .array [.tuple [.uint32 5, .uint16 6]], .array []] := rfl

/-- `roundtrip_tuple_array`, klickhouse/src/types/tests.rs:541-573. -/
example : RoundTrips (.tuple [(.array .uint32), (.array .uint16)]) [.tuple [.array [], .array []], .tuple [.array [.uint32 1], .array []], .tuple [.array [], .array [.uint16 2]], .tuple [.array [.uint32 3], .array [.uint16 4]], .tuple [.array [.uint32 5, .uint32 6], .array [.uint16 7, .uint16 8]]] := rfl

/-- `roundtrip_array_nulls`, klickhouse/src/types/tests.rs:576-600. -/
example : RoundTrips (.array (.nullable .uint32)) [.array [], .array [.null], .array [.uint32 0, .null], .array [.null, .uint32 0], .array [.null, .null, .uint32 1, .uint32 2, .null, .uint32 3]] := rfl

/-- `roundtrip_map`, klickhouse/src/types/tests.rs:603-621. -/
example : RoundTrips (.map .uint32 .uint16) [.map [] [], .map [.uint32 1] [.uint16 2], .map [.uint32 5, .uint32 3] [.uint16 6, .uint16 4]] := rfl

/-- `roundtrip_low_cardinality_string`, klickhouse/src/types/tests.rs:624-647. -/
example : RoundTrips (.lowCardinality .string) [str (ch! ""), str (ch! "abc"), str (ch! "abc"), str (ch! "bcd"), str (ch! "bcd2"), str (ch! "abc"), str (ch! "abc"), str (ch! "abc"), str (ch! "abc"), str (ch! "abc"), str (ch! "abc"), str (ch! "abc"), str (ch! "abc"), str (ch! "abc")] := rfl

/-- `roundtrip_low_cardinality_string_array`, klickhouse/src/types/tests.rs:650-677. -/
example : RoundTrips (.array (.lowCardinality .string)) [.array [], .array [str (ch! "")], .array [str (ch! "abc")], .array [str (ch! "abc")], .array [str (ch! "bcd")], .array [str (ch! "bcd2")], .array [str (ch! "abc")], .array [str (ch! "abc")], .array [str (ch! "abc")], .array [str (ch! "abc")], .array [str (ch! "abc")], .array [str (ch! "abc")], .array [str (ch! "abc")], .array [str (ch! "abc")], .array [str (ch! "abc")]] := rfl

/-- `roundtrip_low_cardinality_string_map`, klickhouse/src/types/tests.rs:680-709. -/
example : RoundTrips (.map (.lowCardinality .string) .uint32) [.map [str (ch! "")] [.uint32 1], .map [str (ch! "abc")] [.uint32 1], .map [str (ch! "abc")] [.uint32 1], .map [str (ch! "bcd")] [.uint32 1], .map [str (ch! "bcd2")] [.uint32 1], .map [str (ch! "abc")] [.uint32 1], .map [str (ch! "abc")] [.uint32 1], .map [str (ch! "abc")] [.uint32 1], .map [str (ch! "abc")] [.uint32 1], .map [str (ch! "abc")] [.uint32 1], .map [str (ch! "abc")] [.uint32 1], .map [str (ch! "abc")] [.uint32 1], .map [str (ch! "abc")] [.uint32 1], .map [str (ch! "abc")] [.uint32 1]] := rfl

/-- `roundtrip_low_cardinality_string_null`, klickhouse/src/types/tests.rs:712-742. -/
example : RoundTrips (.lowCardinality (.nullable .string)) [str (ch! ""), .null, str (ch! "abc"), str (ch! "abc"), str (ch! "bcd"), str (ch! "bcd2"), .null, str (ch! "abc"), str (ch! "abc"), str (ch! "abc"), str (ch! "abc"), .null, str (ch! "abc"), str (ch! "abc"), str (ch! "abc"), str (ch! "abc"), .null, str (ch! "abc")] := rfl

/-- `roundtrip_low_cardinality_array_null`, klickhouse/src/types/tests.rs:745-777. -/
example : RoundTrips (.array (.lowCardinality (.nullable .string))) [.array [str (ch! "")], .array [.null], .array [str (ch! "abc")], .array [str (ch! "abc")], .array [str (ch! "bcd")], .array [str (ch! "bcd2")], .array [.null], .array [str (ch! "abc")], .array [str (ch! "abc")], .array [str (ch! "abc")], .array [str (ch! "abc")], .array [.null], .array [str (ch! "abc")], .array [str (ch! "abc")], .array [str (ch! "abc")], .array [str (ch! "abc")], .array [.null], .array [str (ch! "abc")]] := rfl

/-- `roundtrip_array_null`, klickhouse/src/types/tests.rs:780-810. -/
example : RoundTrips (.array (.nullable .string)) [.array [str (ch! "")], .array [.null], .array [str (ch! "abc")], .array [str (ch! "abc")], .array [str (ch! "bcd")], .array [str (ch! "bcd2")], .array [.null], .array [str (ch! "abc")], .array [str (ch! "abc")], .array [str (ch! "abc")], .array [str (ch! "abc")], .array [.null], .array [str (ch! "abc")], .array [str (ch! "abc")], .array [str (ch! "abc")], .array [str (ch! "abc")], .array [.null], .array [str (ch! "abc")]] := rfl


/-! ### geo columns -/

/-- 1.0, 2.0, ... as `f64` bits. -/
def f1 : BitVec 64 := 0x3FF0000000000000
def f2 : BitVec 64 := 0x4000000000000000
def f3 : BitVec 64 := 0x4008000000000000
def f4 : BitVec 64 := 0x4010000000000000
def f5 : BitVec 64 := 0x4014000000000000
def f6 : BitVec 64 := 0x4018000000000000
def f8 : BitVec 64 := 0x4020000000000000

/-- `roundtrip_geo`, klickhouse/src/types/tests.rs:812-847. -/
example : RoundTrips .point [.point ⟨f1, f3⟩, .point ⟨f3, f5⟩] ∧
    RoundTrips .ring [.ring [⟨f1, f3⟩, ⟨f2, f4⟩], .ring [⟨f3, f5⟩, ⟨f6, f8⟩]] ∧
    RoundTrips .polygon [.polygon [[⟨f1, f3⟩, ⟨f2, f4⟩], [⟨f2, f4⟩, ⟨f4, f6⟩]], .polygon [[⟨f3, f5⟩, ⟨f6, f8⟩]]] ∧
    RoundTrips .multiPolygon [.multiPolygon [[[⟨f1, f3⟩, ⟨f2, f4⟩], [⟨f2, f4⟩]], [[⟨f2, f4⟩], []]], .multiPolygon []] :=
  ⟨rfl, rfl, rfl, rfl⟩

/-! ### klickhouse/src/values/tests.rs -/

/-- `roundtrip`, klickhouse/src/values/tests.rs:18-22: `Value::from_value` (no hint), then `to_value`. -/
def Back (t : RT) (x : t.den) (ty : Ty) : Prop := (t.toSql none x >>= t.fromSql ty) = .ok x

/-- `roundtrip_u8` to `roundtrip_i256`, klickhouse/src/values/tests.rs:24-111. -/
example : Back (.prim .u8) (5#8 : BitVec 8) .uint8 ∧ Back (.prim .u16) (5#16 : BitVec 16) .uint16 ∧ Back (.prim .u32) (5#32 : BitVec 32) .uint32 ∧
    Back (.prim .u64) (5#64 : BitVec 64) .uint64 ∧ Back (.prim .u128) (5#128 : BitVec 128) .uint128 ∧
    Back (.prim .u256) (5#256 <<< 128 : BitVec 256) .uint256 ∧ Back (.prim .i8) (-5#8 : BitVec 8) .int8 ∧
    Back (.prim .i16) (-5#16 : BitVec 16) .int16 ∧ Back (.prim .i32) (-5#32 : BitVec 32) .int32 ∧
    Back (.prim .i64) (-5#64 : BitVec 64) .int64 ∧ Back (.prim .i128) (-5#128 : BitVec 128) .int128 ∧
    Back (.prim .i256) (5#256 <<< 128 : BitVec 256) .int256 :=
  ⟨rfl, rfl, rfl, rfl, rfl, rfl, rfl, rfl, rfl, rfl, rfl, rfl⟩

/-- `roundtrip_f32`, `roundtrip_f64`, `roundtrip_bf16`, klickhouse/src/values/tests.rs:113-172: the bits come back, those of NaN too. -/
example : Back (.prim .f32) (0x7FC00000 : BitVec 32) .float32 ∧ Back (.prim .f64) (0x7FF8000000000000 : BitVec 64) .float64 ∧
    Back (.prim .bf16) (0x7FC0 : BitVec 16) .bfloat16 := ⟨rfl, rfl, rfl⟩

/-- `roundtrip_d32` to `roundtrip_d256`, klickhouse/src/values/tests.rs:174-228. -/
example : Back (.prim (.fixed32 3)) (-5#32 : BitVec 32) (.decimal32 3) ∧ Back (.prim (.fixed64 3)) (-5#64 : BitVec 64) (.decimal64 3) ∧
    Back (.prim (.fixed128 3)) (-5#128 : BitVec 128) (.decimal128 3) ∧ Back (.prim (.fixed256 3)) (5#256 <<< 128 : BitVec 256) (.decimal256 3) :=
  ⟨rfl, rfl, rfl, rfl⟩

/-- `roundtrip_string`, `roundtrip_fixed_string`, klickhouse/src/values/tests.rs:230-247: a `FixedString` shorter than the text does not
cut it here. -/
example : Back .string (ch! "test") .string ∧ Back .string (ch! "") .string ∧ Back .string (ch! "test") (.fixedString 32) ∧
    Back .string (ch! "") (.fixedString 32) ∧ Back .string (ch! "test") (.fixedString 3) := ⟨rfl, rfl, rfl, rfl, rfl⟩

/-- `roundtrip_string_null`, klickhouse/src/values/tests.rs:249-266. -/
example : Back (.option .string) (some (ch! "test")) (.nullable .string) ∧ Back (.option .string) (some (ch! "")) (.nullable .string) ∧
    Back (.option .string) (none : Option Str) (.nullable .string) := ⟨rfl, rfl, rfl⟩

/-- `roundtrip_uuid` to `roundtrip_datetime64`, klickhouse/src/values/tests.rs:268-302. -/
example : Back (.prim .uuid) (5#128 : BitVec 128) .uuid ∧ Back (.prim .date) (20000#16 : BitVec 16) .date ∧
    Back (.prim .dateTime) ((ch! "UTC", 323463434#32) : Tz × BitVec 32) (.dateTime (ch! "UTC")) ∧
    Back (.prim (.dateTime64 3)) ((ch! "UTC", 45345345#64) : Tz × BitVec 64) (.dateTime64 3 (ch! "UTC")) := ⟨rfl, rfl, rfl, rfl⟩

/-- `Vec<u32>`. -/
def rtU32s : RT := .vec (.prim .u32)

/-- `roundtrip_array`, `roundtrip_2array`, klickhouse/src/values/tests.rs:304-357. -/
example : Back rtU32s ([5, 3, 2, 7] : List (BitVec 32)) (.array .uint32) ∧ Back rtU32s ([] : List (BitVec 32)) (.array .uint32) ∧
    Back (.vec rtU32s) ([[5, 3, 2, 7], [5, 3, 2, 7]] : List (List (BitVec 32))) (.array (.array .uint32)) ∧
    Back (.vec rtU32s) ([[], [5, 3, 2, 7]] : List (List (BitVec 32))) (.array (.array .uint32)) ∧
    Back (.vec rtU32s) ([] : List (List (BitVec 32))) (.array (.array .uint32)) := ⟨rfl, rfl, rfl, rfl, rfl⟩

/-- `(u32, u16)`. -/
def rtPair : RT := .tuple [.prim .u32, .prim .u16]

/-- `roundtrip_tuple`, `roundtrip_2tuple`, `roundtrip_array_tuple`, klickhouse/src/values/tests.rs:359-425. -/
example : Back rtPair ((1231123, 7123, ()) : BitVec 32 × BitVec 16 × Unit) (.tuple [.uint32, .uint16]) ∧
    Back (.tuple [.prim .u32, rtPair]) ((1231123, (5, 7, ()), ()) : BitVec 32 × (BitVec 32 × BitVec 16 × Unit) × Unit)
      (.tuple [.uint32, .tuple [.uint32, .uint16]]) ∧
    Back (.vec rtPair) ([(5, 7, ()), (1231123, 7123, ())] : List (BitVec 32 × BitVec 16 × Unit)) (.array (.tuple [.uint32, .uint16])) :=
  ⟨rfl, rfl, rfl⟩

/-- `roundtrip_tuple_array`, klickhouse/src/values/tests.rs:427-462. -/
example : Back (.tuple [rtU32s, .vec (.prim .u16)]) (([5, 3], [3, 2, 7], ()) : List (BitVec 32) × List (BitVec 16) × Unit)
    (.tuple [.array .uint32, .array .uint16]) := rfl

/-- `roundtrip_array_nulls`, klickhouse/src/values/tests.rs:464-482. -/
example : Back (.vec (.option (.prim .u32))) ([some 5, none, some 3, some 2, none] : List (Option (BitVec 32))) (.array (.nullable .uint32)) := rfl

/-- `roundtrip_map`, klickhouse/src/values/tests.rs:484-510. -/
example : Back (.map .string .string) ([(ch! "test", ch! "value"), (ch! "t2est", ch! "v2alue")] : List (Str × Str)) (.map .string .string) := rfl

/-- `roundtrip_geo`, klickhouse/src/values/tests.rs:525-545. -/
example : Back (.prim .point) (⟨f1, f2⟩ : Pt) .point ∧ Back (.prim .ring) ([⟨f1, f2⟩, ⟨f3, f4⟩] : List Pt) .ring ∧
    Back (.prim .polygon) ([[⟨f1, f2⟩, ⟨f3, f4⟩], [⟨f5, f6⟩]] : List (List Pt)) .polygon ∧
    Back (.prim .multiPolygon) ([[[⟨f1, f2⟩, ⟨f3, f4⟩], [⟨f5, f6⟩]], [[⟨f1, f2⟩, ⟨f3, f4⟩], [⟨f1, f2⟩]]] : List (List (List Pt))) .multiPolygon :=
  ⟨rfl, rfl, rfl, rfl⟩

/-- `test_escape`, klickhouse/src/values/tests.rs:512-523. -/
example (ext : Ext) : (str (ch! "test")).text ext = .ok (ch! "'test'") ∧ (str (ch! "te\nst")).text ext = .ok (ch! "'te\\nst'") ∧
    (str (ch! "te\\nst")).text ext = .ok (ch! "'te\\\\nst'") ∧ (str (ch! "te\\xst")).text ext = .ok (ch! "'te\\\\xst'") ∧
    (str (ch! "te'st")).text ext = .ok (ch! "'te\\'st'") ∧
    (str (ch! "te😊st")).text ext = .ok (ch! "'te\\xF0\\x9F\\x98\\x8Ast'") := ⟨rfl, rfl, rfl, rfl, rfl, rfl⟩

/-- `test_select_builder`, klickhouse/src/query/select.rs:380-403; the template of the last `where_` is read as the tokens
`col5 = `, `$1`. -/
example (ext : Ext) : (SelectBuilder.calls (.ok (ch! "table_name"))
    [.select (.ok (ch! "col1")), .select (.ok (ch! "col2 as COL2")), .arrayJoin (.ok (ch! "ARRAY JOIN col3")),
      .where_ (.ok (ch! "col4 LIKE 'test'")), .groupBy (.ok (ch! "col1")), .offset (.ok ['5']),
      .where_ (finalizeQuery ext [.other (ch! "col5 = "), .clientArgument ['1']] [.ok (str (ch! "test"))])]).build =
    .ok (ch! "SELECT\ncol1,\ncol2 as COL2\nFROM table_name\nARRAY JOIN col3\nWHERE (col4 LIKE 'test') AND\n(col5 = 'test')\nGROUP BY col1\nOFFSET 5\n") :=
  rfl

/-- `roundtrip`, klickhouse/src/values/geo.rs:191-202: a closed multi-polygon comes back from `geo_types` as it was (coordinates
replaced by other numbers). -/
example : multiOfGeo (geoOfMulti [[[⟨f4, f4⟩, ⟨f2, f5⟩, ⟨f5, f3⟩, ⟨f4, f4⟩]], [[⟨f2, f3⟩, ⟨f1, f3⟩, ⟨f2, f3⟩], [⟨f3, f2⟩, ⟨f2, f1⟩, ⟨f3, f2⟩]]]) =
    [[[⟨f4, f4⟩, ⟨f2, f5⟩, ⟨f5, f3⟩, ⟨f4, f4⟩]], [[⟨f2, f3⟩, ⟨f1, f3⟩, ⟨f2, f3⟩], [⟨f3, f2⟩, ⟨f2, f1⟩, ⟨f3, f2⟩]]] := rfl

end Klick.UnitTests
