import Verif.Codec
/-
Hashing of values: klickhouse/src/values/mod.rs:134-195 and the `Hash` impls of the wrapper types. A hasher is fed a sequence of
words; the model is that sequence (what the hasher makes of it is the user's choice).
-/
namespace Klick

/-- One write to a `std::hash::Hasher`: a number of a given width in bytes (`write_u16`, ...; `usize` and lengths are 8 bytes), a run
of bytes (`write`), or what the derived `Hash` of `chrono_tz::Tz` writes for a zone, klickhouse/src/values/mod.rs:134-195. -/
inductive HashWord where
  | num (width n : Nat)
  | raw (b : Bytes)
  | zone (tz : Tz)
deriving DecidableEq, Repr

/-- Derived `Hash` of `i256`/`u256` (`[u8; 32]`, klickhouse/src/values/int256.rs:10-13,69-72): a length and the bytes in big-endian order. -/
def hash256 (x : BitVec 256) : List HashWord := [.num 8 32, .raw (be 32 x.toNat)]

/-- `impl Hash for Point`, klickhouse/src/values/geo.rs:11-17. -/
def Pt.hash (p : Pt) : List HashWord := [.num 8 p.x.toNat, .num 8 p.y.toNat]

/-- `Hash` of a `Vec` (and derived `Hash` of `Ring`, `Polygon`, `MultiPolygon`, klickhouse/src/values/geo.rs:29,35,41): the length, then the elements. -/
def hashVec {α : Type} (f : α → List HashWord) (xs : List α) : List HashWord :=
  .num 8 xs.length :: (xs.map f).flatten

/-- `core::mem::discriminant` of a value, as a number; klickhouse/src/values/mod.rs:39-89 in the order of the constructors. -/
def Value.discr : Value → Nat
  | .int8 _ => 0 | .int16 _ => 1 | .int32 _ => 2 | .int64 _ => 3 | .int128 _ => 4 | .int256 _ => 5
  | .uint8 _ => 6 | .uint16 _ => 7 | .uint32 _ => 8 | .uint64 _ => 9 | .uint128 _ => 10 | .uint256 _ => 11
  | .float32 _ => 12 | .float64 _ => 13 | .bfloat16 _ => 14
  | .decimal32 _ _ => 15 | .decimal64 _ _ => 16 | .decimal128 _ _ => 17 | .decimal256 _ _ => 18
  | .string _ => 19 | .uuid _ => 20 | .date _ => 21 | .dateTime _ _ => 22 | .dateTime64 _ _ _ => 23
  | .enum8 _ => 24 | .enum16 _ => 25 | .array _ => 26 | .tuple _ => 27 | .null => 28 | .map _ _ => 29
  | .ipv4 _ => 30 | .ipv6 _ => 31 | .point _ => 32 | .ring _ => 33 | .polygon _ => 34 | .multiPolygon _ => 35

mutual
/-- `impl Hash for Value`, klickhouse/src/values/mod.rs:134-195, after the discriminant. The `bfloat16` feature is on (otherwise the
word is always 0, klickhouse/src/values/bfloat16.rs:107-110). -/
def Value.hashRest : Value → List HashWord
  | .int8 x => [.num 1 x.toNat] | .int16 x => [.num 2 x.toNat] | .int32 x => [.num 4 x.toNat] | .int64 x => [.num 8 x.toNat]
  | .int128 x => [.num 16 x.toNat] | .int256 x => hash256 x
  | .uint8 x => [.num 1 x.toNat] | .uint16 x => [.num 2 x.toNat] | .uint32 x => [.num 4 x.toNat] | .uint64 x => [.num 8 x.toNat]
  | .uint128 x => [.num 16 x.toNat] | .uint256 x => hash256 x
  | .float32 x => [.num 4 x.toNat] | .float64 x => [.num 8 x.toNat] | .bfloat16 x => [.num 2 x.toNat]
  | .decimal32 p x => [.num 8 p, .num 4 x.toNat] | .decimal64 p x => [.num 8 p, .num 8 x.toNat]
  | .decimal128 p x => [.num 8 p, .num 16 x.toNat] | .decimal256 p x => .num 8 p :: hash256 x
  | .string b => [.num 8 b.length, .raw b]
  | .uuid x => [.num 8 16, .raw (be 16 x.toNat)]
  | .date d => [.num 2 d.toNat]
  | .dateTime tz t => [.zone tz, .num 4 t.toNat]
  | .dateTime64 tz t p => [.zone tz, .num 8 t.toNat, .num 8 p]
  | .enum8 x => [.num 1 x.toNat] | .enum16 x => [.num 2 x.toNat]
  | .array xs => .num 8 xs.length :: Value.hashAll xs
  | .tuple xs => .num 8 xs.length :: Value.hashAll xs
  | .null => []
  | .map ks vs => (.num 8 ks.length :: Value.hashAll ks) ++ (.num 8 vs.length :: Value.hashAll vs)
  | .ipv4 x => [.num 8 4, .raw (be 4 x.toNat)]
  | .ipv6 x => [.num 8 16, .raw (be 16 x.toNat)]
  | .point p => p.hash
  | .ring r => hashVec Pt.hash r
  | .polygon r => hashVec (hashVec Pt.hash) r
  | .multiPolygon r => hashVec (hashVec (hashVec Pt.hash)) r
/-- The elements of a `Vec<Value>`, each with its discriminant (`write_isize`), klickhouse/src/values/mod.rs:134-195. -/
def Value.hashAll : List Value → List HashWord
  | [] => []
  | v :: vs => (.num 8 v.discr :: Value.hashRest v) ++ Value.hashAll vs
end

/-- `impl Hash for Value`, klickhouse/src/values/mod.rs:134-195: the discriminant first. -/
def Value.hashWords (v : Value) : List HashWord := .num 8 v.discr :: v.hashRest

end Klick
