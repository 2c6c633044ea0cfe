import Verif.Convert
import Verif.Dates
import Verif.Numeric
import Verif.RawInsert
/-
Containers of user types: `Vec<T>`, `[T; N]`, `Option<T>`, `Box<T>`, `VecTuple<T>`, tuples and maps where the `T`s inside, at any depth, are
types with their own `ToSql` and `FromSql` (user code, or `chrono` times, `Decimal`, `Json`). The container code is that of `RT`
(`Convert`): the same functions, applied to other conversions of the parts.
-/
namespace Klick

/-- A type with implementations of `ToSql` and `FromSql`, klickhouse/src/convert/mod.rs:18-21,33-36. -/
structure SqlType (α : Type) where
  /-- `to_sql`: hint, value. -/
  toSql : Option Ty → α → Res Value
  /-- `from_sql`: column type, value. -/
  fromSql : Ty → Value → Res α

/-- Types built from user types, named by `ι`, and ordinary ones. Keys of maps are ordinary, klickhouse/src/convert/std_serialize.rs:110-227. -/
inductive Nest (ι : Type) where
  | std (t : RT)
  | user (i : ι)
  | vec (t : Nest ι)
  | array (t : Nest ι) (n : Nat)
  | option (t : Nest ι)
  | box (t : Nest ι)
  | vecTuple (t : Nest ι)
  | tuple (ts : List (Nest ι))
  | map (k : RT) (v : Nest ι)

variable {ι : Type} (A : ι → Type) (L : ∀ i, SqlType (A i))

mutual
/-- Their values (compare `RT.den`), klickhouse/src/convert/std_serialize.rs:110-227. -/
def Nest.den : Nest ι → Type
  | .std t => t.den
  | .user i => A i
  | .vec t => List (Nest.den t)
  | .array t n => { xs : List (Nest.den t) // xs.length = n }
  | .option t => Option (Nest.den t)
  | .box t => Nest.den t
  | .vecTuple t => List (Nest.den t)
  | .tuple ts => Nest.dens ts
  | .map k v => List (k.den × Nest.den v)
/-- Tuples of values, klickhouse/src/convert/std_serialize.rs:211-227. -/
def Nest.dens : List (Nest ι) → Type
  | [] => Unit
  | t :: ts => Nest.den t × Nest.dens ts
end

/-- The transmute of klickhouse/src/convert/std_serialize.rs:116-122: user types are neither `u8` nor `i8`. -/
def Nest.asBytes : (t : Nest ι) → List (t.den A) → Option Bytes
  | .std t => t.asBytes
  | _ => fun _ => none

/-- The transmute of klickhouse/src/convert/std_deserialize.rs:203-208. -/
def Nest.ofBytes : (t : Nest ι) → Bytes → Option (List (t.den A))
  | .std t => t.ofBytes
  | _ => fun _ => none

variable {A}

mutual
/-- `to_sql` of containers, klickhouse/src/convert/std_serialize.rs:110-227, convert/vec_tuple.rs:9-19 (compare `RT.toSql`). -/
def Nest.toSql : (t : Nest ι) → Option Ty → t.den A → Res Value
  | .std t => t.toSql
  | .user i => (L i).toSql
  | .vec t => fun h xs => vecToSql (t.asBytes A) (Nest.toSql t) h xs
  | .array t n => fun h (xs : { xs : List (t.den A) // xs.length = n }) => arrayToSql (Nest.toSql t) h xs.1
  | .option t => fun h x => optionToSql (Nest.toSql t) h x
  | .box t => fun h x => Nest.toSql t h x
  | .vecTuple t => fun h xs => mapHints (Nest.toSql t) (memberHints h) xs >>= fun vs => .ok (.tuple vs)
  | .tuple ts => fun h x => Nest.toSqls ts (memberHints h) x >>= fun vs => .ok (.tuple vs)
  | .map k v => fun h es => mapToSql k.toSql (Nest.toSql v) h es
/-- The members of a tuple in order, klickhouse/src/convert/std_serialize.rs:216-222. -/
def Nest.toSqls : (ts : List (Nest ι)) → List Ty → Nest.dens A ts → Res (List Value)
  | [] => fun _ _ => .ok []
  | t :: ts => fun hs (x : t.den A × Nest.dens A ts) =>
    Nest.toSql t hs.head? x.1 >>= fun v => Nest.toSqls ts hs.tail x.2 >>= fun vs => .ok (v :: vs)
end

mutual
/-- `from_sql` of containers, klickhouse/src/convert/std_deserialize.rs:194-359, convert/vec_tuple.rs:21-44 (compare `RT.fromSql`). -/
def Nest.fromSql : (t : Nest ι) → Ty → Value → Res (t.den A)
  | .std t => t.fromSql
  | .user i => (L i).fromSql
  | .vec t => vecFromSql (t.ofBytes A) (Nest.fromSql t)
  | .array t n => arrayFromSql n (Nest.fromSql t)
  | .option t => optionFromSql (Nest.fromSql t)
  | .box t => Nest.fromSql t
  | .vecTuple t => vecTupleFromSql (Nest.fromSql t)
  | .tuple ts => tupleFromSql ts.length (Nest.fromSqls ts)
  | .map k v => mapFromSql k.keyEq k.fromSql (Nest.fromSql v)
/-- The members in order, klickhouse/src/convert/std_deserialize.rs:349-354. -/
def Nest.fromSqls : (ts : List (Nest ι)) → List Ty → List Value → Res (Nest.dens A ts)
  | [] => fun _ _ => .ok ()
  | t :: ts => fun Ts vs =>
    match Ts, vs with
    | T :: Ts, v :: vs => Nest.fromSql t T.stripLowCardinality v >>= fun x => Nest.fromSqls ts Ts vs >>= fun xs => .ok (x, xs)
    | _, _ => .panic
end

/-- `chrono::DateTime<Tz>` (and `<Utc>`), klickhouse/src/values/date.rs:378-416. -/
def chronoType (cfg : Cfg) : SqlType (Tz × Inst) := ⟨fun _ x => chronoToSql x.1 x.2, chronoFromSql cfg⟩
/-- `rust_decimal::Decimal`, klickhouse/src/values/decimal.rs. -/
def decimalType (cfg : Cfg) : SqlType Decimal := ⟨Decimal.toSql cfg, Decimal.fromSql⟩
/-- `Json<T>`, klickhouse/src/convert/json.rs. -/
def jsonType {α : Type} (j : SerdeJson α) : SqlType α := ⟨jsonToSql j, jsonFromSql j⟩

end Klick
