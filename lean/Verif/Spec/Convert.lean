import Verif.Convert
import Verif.Spec.Column
/-
Specification vocabulary for conversions between Rust values and column values (C45, C46): which column
type goes with which Rust type, which Rust values have a column value of their own, and what a value read
from a column looks like.
-/
namespace Klick.Spec
open Klick

/-- The column types that go with a scalar Rust type: the type of the same width and signedness, the same
scale or precision. (`DateTime` goes with every time zone, a `bool` with `UInt8`.) -/
inductive Column : Prim → Ty → Prop where
  | bool : Column .bool .uint8
  | u8 : Column .u8 .uint8 | u16 : Column .u16 .uint16 | u32 : Column .u32 .uint32
  | u64 : Column .u64 .uint64 | u128 : Column .u128 .uint128 | u256 : Column .u256 .uint256
  | i8 : Column .i8 .int8 | i16 : Column .i16 .int16 | i32 : Column .i32 .int32
  | i64 : Column .i64 .int64 | i128 : Column .i128 .int128 | i256 : Column .i256 .int256
  | f32 : Column .f32 .float32 | f64 : Column .f64 .float64 | bf16 : Column .bf16 .bfloat16
  | uuid : Column .uuid .uuid | ipv4 : Column .ipv4 .ipv4 | ipv6 : Column .ipv6 .ipv6
  | date : Column .date .date
  | dateTime {tz} : Column .dateTime (.dateTime tz)
  | dateTime64 {p tz} : Column (.dateTime64 p) (.dateTime64 p tz)
  | fixed32 {p} : Column (.fixed32 p) (.decimal32 p) | fixed64 {p} : Column (.fixed64 p) (.decimal64 p)
  | fixed128 {p} : Column (.fixed128 p) (.decimal128 p)
  | fixed256 {p} : Column (.fixed256 p) (.decimal256 p)
  | point : Column .point .point | ring : Column .ring .ring | polygon : Column .polygon .polygon
  | multiPolygon : Column .multiPolygon .multiPolygon

/-- Is it a `LowCardinality` type? -/
def isLc : Ty → Bool
  | .lowCardinality _ => true
  | _ => false

mutual
/-- `Suits hinted t T`: Rust type `t` goes with column type `T`; `hinted` says that the writer is told the
column type (only `Bytes` in an array column needs that). `LowCardinality` around an element, a member, a
key or a value does not matter, except that `VecTuple` takes its members' types literally. -/
def Suits (hinted : Bool) : RT → Ty → Prop
  | .prim p => fun T => Column p T
  | .string => fun T => T = .string ∨ ∃ n, T = .fixedString n
  | .bytes => fun T => T = .string ∨ (∃ n, T = .fixedString n) ∨
      (hinted = true ∧ (T = .array .uint8 ∨ T = .array .int8))
  | .value => fun _ => True
  | .vec t => fun T => ∃ S, T = .array S ∧ Suits hinted t S.stripLowCardinality
  | .array t _ => fun T => ∃ S, T = .array S ∧ Suits hinted t S.stripLowCardinality
  | .option t => fun T =>
      (∃ S, T = .nullable S ∧ Suits (hinted && !isLc S) t S.stripLowCardinality) ∨
      (T.isNullable = false ∧ Suits false t T)
  | .box t => fun T => Suits hinted t T
  | .vecTuple t => fun T => ∃ Ts, T = .tuple Ts ∧ ∀ S ∈ Ts, Suits hinted t S
  | .tuple ts => fun T => ∃ Ts, T = .tuple Ts ∧ SuitsAll hinted ts Ts
  | .map k v => fun T => ∃ K V, T = .map K V ∧ Suits (hinted && !isLc K) k K.stripLowCardinality ∧
      Suits (hinted && !isLc V) v V.stripLowCardinality
/-- Memberwise. -/
def SuitsAll (hinted : Bool) : List RT → List Ty → Prop
  | [] => fun Ts => Ts = []
  | t :: ts => fun Ts => ∃ S Ss, Ts = S :: Ss ∧ Suits (hinted && !isLc S) t S.stripLowCardinality ∧
      SuitsAll hinted ts Ss
end

/-- Rust values that are written as NULL. -/
def NullLike : (t : RT) → t.den → Prop
  | .value => fun v => v = Value.null
  | .option t => fun (x : Option t.den) => match x with
    | none => True
    | some y => NullLike t y
  | .box t => fun (x : t.den) => NullLike t x
  | _ => fun _ => False

/-- The type of the elements of an array column. -/
def elemTy : Ty → Ty
  | .array S => S.stripLowCardinality
  | T => T

/-- The type of the values of a column that are not NULL. -/
def someTy : Ty → Ty
  | .nullable S => S.stripLowCardinality
  | T => T

/-- The types of the members of a tuple column. -/
def memberTys : Ty → List Ty
  | .tuple Ts => Ts
  | _ => []

mutual
/-- No `Value` in the type: equality of its values is equality of all their parts. (`Value` has an equality of its own, see C67.) -/
def ValueFree : RT → Prop
  | .value => False
  | .vec t => ValueFree t
  | .array t _ => ValueFree t
  | .option t => ValueFree t
  | .box t => ValueFree t
  | .vecTuple t => ValueFree t
  | .tuple ts => ValueFreeAll ts
  | .map k v => ValueFree k ∧ ValueFree v
  | _ => True
/-- Memberwise. -/
def ValueFreeAll : List RT → Prop
  | [] => True
  | t :: ts => ValueFree t ∧ ValueFreeAll ts
end

mutual
/-- Rust values with a column value of their own: no `Some` of a NULL (`Some(None)`), a `VecTuple` with one
member per member type, a map with distinct keys (every Rust map has). -/
def Faithful : (t : RT) → Ty → t.den → Prop
  | .prim _ => fun _ _ => True
  | .string => fun _ _ => True
  | .bytes => fun _ _ => True
  | .value => fun _ _ => True
  | .vec t => fun T (xs : List t.den) => ∀ x ∈ xs, Faithful t (elemTy T) x
  | .array t n => fun T (xs : { xs : List t.den // xs.length = n }) => ∀ x ∈ xs.1, Faithful t (elemTy T) x
  | .option t => fun T (x : Option t.den) => ∀ y, x = some y → ¬ NullLike t y ∧ Faithful t (someTy T) y
  | .box t => fun T (x : t.den) => Faithful t T x
  | .vecTuple t => fun T (xs : List t.den) => xs.length = (memberTys T).length ∧
      ∀ e ∈ xs.zip (memberTys T), Faithful t e.2 e.1
  | .tuple ts => fun T (x : RT.dens ts) => FaithfulAll ts (memberTys T) x
  | .map k v => fun T (es : List (k.den × v.den)) => ∀ K V, T = .map K V →
      es.Pairwise (fun a b => k.keyEq a.1 b.1 = false) ∧
      (∀ e ∈ es, Faithful k K.stripLowCardinality e.1) ∧
      (∀ e ∈ es, Faithful v V.stripLowCardinality e.2)
/-- Memberwise. -/
def FaithfulAll : (ts : List RT) → List Ty → RT.dens ts → Prop
  | [] => fun _ _ => True
  | t :: ts => fun Ts (x : t.den × RT.dens ts) => ∀ S Ss, Ts = S :: Ss →
      Faithful t S.stripLowCardinality x.1 ∧ FaithfulAll ts Ss x.2
end

/-- The hint given to the writer: nothing, the type the reader will be given, or that type inside
`LowCardinality` (the reader of a row is given the type without it). -/
def Hint (hinted : Bool) (h : Option Ty) (T : Ty) : Prop :=
  (hinted = true → h = some T) ∧ (h = none ∨ h = some T ∨ h = some (.lowCardinality T))

mutual
/-- What a value read from a column of type `T` looks like. (A tuple read from damaged bytes can have too
few members, if there is a `LowCardinality` among them; its members are then out of place.) -/
def Shaped : Ty → Value → Prop
  | .int8 => fun v => ∃ x, v = .int8 x
  | .int16 => fun v => ∃ x, v = .int16 x
  | .int32 => fun v => ∃ x, v = .int32 x
  | .int64 => fun v => ∃ x, v = .int64 x
  | .int128 => fun v => ∃ x, v = .int128 x
  | .int256 => fun v => ∃ x, v = .int256 x
  | .uint8 => fun v => ∃ x, v = .uint8 x
  | .uint16 => fun v => ∃ x, v = .uint16 x
  | .uint32 => fun v => ∃ x, v = .uint32 x
  | .uint64 => fun v => ∃ x, v = .uint64 x
  | .uint128 => fun v => ∃ x, v = .uint128 x
  | .uint256 => fun v => ∃ x, v = .uint256 x
  | .float32 => fun v => ∃ x, v = .float32 x
  | .float64 => fun v => ∃ x, v = .float64 x
  | .bfloat16 => fun v => ∃ x, v = .bfloat16 x
  | .decimal32 s => fun v => ∃ x, v = .decimal32 s x
  | .decimal64 s => fun v => ∃ x, v = .decimal64 s x
  | .decimal128 s => fun v => ∃ x, v = .decimal128 s x
  | .decimal256 s => fun v => ∃ x, v = .decimal256 s x
  | .string => fun v => ∃ b, v = .string b
  | .fixedString _ => fun v => ∃ b, v = .string b
  | .uuid => fun v => ∃ x, v = .uuid x
  | .date => fun v => ∃ x, v = .date x
  | .dateTime tz => fun v => ∃ x, v = .dateTime tz x
  | .dateTime64 p tz => fun v => ∃ x, v = .dateTime64 tz x p
  | .ipv4 => fun v => ∃ x, v = .ipv4 x
  | .ipv6 => fun v => ∃ x, v = .ipv6 x
  | .point => fun v => ∃ x, v = .point x
  | .ring => fun v => ∃ x, v = .ring x
  | .polygon => fun v => ∃ x, v = .polygon x
  | .multiPolygon => fun v => ∃ x, v = .multiPolygon x
  | .enum8 _ => fun v => ∃ x, v = .enum8 x
  | .enum16 _ => fun v => ∃ x, v = .enum16 x
  | .lowCardinality t => fun v => Shaped t v
  | .array t => fun v => ∃ xs, v = .array xs ∧ ∀ x ∈ xs, Shaped t x
  | .tuple ts => fun v => ∃ xs, v = .tuple xs ∧ (xs.length = ts.length → ShapedAll ts xs)
  | .nullable t => fun v => v = .null ∨ Shaped t v
  | .map k t => fun v => ∃ ks vs, v = .map ks vs ∧ ks.length = vs.length ∧
      (∀ x ∈ ks, Shaped k x) ∧ (∀ x ∈ vs, Shaped t x)
/-- One member per member type. -/
def ShapedAll : List Ty → List Value → Prop
  | [] => fun vs => vs = []
  | t :: ts => fun vs => ∃ x xs, vs = x :: xs ∧ Shaped t x ∧ ShapedAll ts xs
end

mutual
/-- Rust types that keep everything they read: all but `bool` (every nonzero byte is `true`), maps (equal
keys are merged) and `Bytes` (signed and unsigned bytes look the same). -/
def Lossless : RT → Prop
  | .prim p => p ≠ .bool
  | .string => True
  | .bytes => False
  | .value => True
  | .vec t => Lossless t
  | .array t _ => Lossless t
  | .option t => Lossless t
  | .box t => Lossless t
  | .vecTuple t => Lossless t
  | .tuple ts => LosslessAll ts
  | .map _ _ => False
/-- All members. -/
def LosslessAll : List RT → Prop
  | [] => True
  | t :: ts => Lossless t ∧ LosslessAll ts
end

end Klick.Spec
