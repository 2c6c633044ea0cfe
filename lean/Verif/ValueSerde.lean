import Verif.Serde
import Verif.Values
import Verif.Codec
/-
The serde implementations of `Value` (feature `serde`): derived at klickhouse/src/values/mod.rs:37-89, values/geo.rs:6,30,36,42,
values/int256.rs:12,70, values/ip.rs:10,47; written by hand for dates and times (`Serde`). A serializer and a deserializer that carry the
data model of serde unchanged are taken for granted (also NaN, which JSON does not carry). The `bfloat16` feature is on.
-/
namespace Klick

/-- What a variant contains besides values, in serde's data model, klickhouse/src/values/mod.rs:40-88: a number of some number of bits (a float by its
bits; a UUID and an IP address, whose own implementations carry them in forms of their own), a `usize`, a text, a sequence. A newtype struct is what it contains. -/
inductive SerdeAtom where
  | num (width : Nat) (x : Nat)
  | size (n : Nat)
  | text (s : Str)
  | seq (xs : List SerdeAtom)

/-- What is written for a `Value`, klickhouse/src/values/mod.rs:38-89: the variant, by its number (or its name; both are distinct), and its content: in most
variants no values, in `Array` and `Tuple` one sequence of values, in `Map` two. -/
inductive SerdeForm where
  | plain (variant : Nat) (content : List SerdeAtom)
  | one (variant : Nat) (xs : List SerdeForm)
  | two (variant : Nat) (xs ys : List SerdeForm)

/-- A number of a given width, values/mod.rs:40-88. -/
def SerdeAtom.ofBits {w : Nat} (x : BitVec w) : SerdeAtom := .num w x.toNat
/-- Bytes: `Vec<u8>` and `[u8; 32]`, values/mod.rs:64, values/int256.rs:14,72. -/
def SerdeAtom.ofBytes (b : Bytes) : SerdeAtom := .seq (b.map SerdeAtom.ofBits)
/-- `Point([f64; 2])`, klickhouse/src/values/geo.rs:6-10. -/
def SerdeAtom.ofPt (p : Pt) : SerdeAtom := .seq [.ofBits p.x, .ofBits p.y]
/-- A `Vec`, klickhouse/src/values/geo.rs:31,37,43. -/
def SerdeAtom.ofList {α : Type} (f : α → SerdeAtom) (xs : List α) : SerdeAtom := .seq (xs.map f)

/-- Reading a number of a given width, values/mod.rs:40-88. -/
def SerdeAtom.bits (w : Nat) : SerdeAtom → Res (BitVec w)
  | .num k x => if k = w then .ok (BitVec.ofNat w x) else .err serdeErr
  | _ => .err serdeErr
/-- Reading a `Vec`, klickhouse/src/values/geo.rs:31,37,43. -/
def SerdeAtom.list {α : Type} (f : SerdeAtom → Res α) : SerdeAtom → Res (List α)
  | .seq xs => Res.mapL f xs
  | _ => .err serdeErr
/-- Reading the 32 bytes of a 256-bit integer, values/int256.rs:14,72. -/
def SerdeAtom.wide (a : SerdeAtom) : Res (BitVec 256) :=
  a.list (SerdeAtom.bits 8) >>= fun b => if b.length = 32 then .ok (BitVec.ofNat 256 (unBe b)) else .err serdeErr
/-- Reading a `Point`, klickhouse/src/values/geo.rs:6-10. -/
def SerdeAtom.pt : SerdeAtom → Res Pt
  | .seq [x, y] => x.bits 64 >>= fun x => y.bits 64 >>= fun y => .ok ⟨x, y⟩
  | _ => .err serdeErr

mutual
/-- The derived `Serialize for Value`, klickhouse/src/values/mod.rs:38-89. -/
def Value.ser (cfg : Cfg) (r : Rfc3339) : Value → Res SerdeForm
  | .int8 x => .ok (.plain 0 [.ofBits x])
  | .int16 x => .ok (.plain 1 [.ofBits x])
  | .int32 x => .ok (.plain 2 [.ofBits x])
  | .int64 x => .ok (.plain 3 [.ofBits x])
  | .int128 x => .ok (.plain 4 [.ofBits x])
  | .int256 x => .ok (.plain 5 [.ofBytes (be 32 x.toNat)])
  | .uint8 x => .ok (.plain 6 [.ofBits x])
  | .uint16 x => .ok (.plain 7 [.ofBits x])
  | .uint32 x => .ok (.plain 8 [.ofBits x])
  | .uint64 x => .ok (.plain 9 [.ofBits x])
  | .uint128 x => .ok (.plain 10 [.ofBits x])
  | .uint256 x => .ok (.plain 11 [.ofBytes (be 32 x.toNat)])
  | .float32 x => .ok (.plain 12 [.ofBits x])
  | .float64 x => .ok (.plain 13 [.ofBits x])
  | .bfloat16 x => .ok (.plain 14 [.ofBits x])
  | .decimal32 p x => .ok (.plain 15 [.size p, .ofBits x])
  | .decimal64 p x => .ok (.plain 16 [.size p, .ofBits x])
  | .decimal128 p x => .ok (.plain 17 [.size p, .ofBits x])
  | .decimal256 p x => .ok (.plain 18 [.size p, .ofBytes (be 32 x.toNat)])
  | .string b => .ok (.plain 19 [.ofBytes b])
  | .uuid x => .ok (.plain 20 [.ofBits x])
  | .date d => r.dateSer d >>= fun s => .ok (.plain 21 [.text s])
  | .dateTime tz x => r.dateTimeSer (tz, x) >>= fun s => .ok (.plain 22 [.text s])
  | .dateTime64 tz x p => r.dynSer cfg (tz, x, p) >>= fun s => .ok (.plain 23 [.text s])
  | .enum8 x => .ok (.plain 24 [.ofBits x])
  | .enum16 x => .ok (.plain 25 [.ofBits x])
  | .array xs => Value.sers cfg r xs >>= fun cs => .ok (.one 26 cs)
  | .tuple xs => Value.sers cfg r xs >>= fun cs => .ok (.one 27 cs)
  | .null => .ok (.plain 28 [])
  | .map ks vs => Value.sers cfg r ks >>= fun cs => Value.sers cfg r vs >>= fun ds => .ok (.two 29 cs ds)
  | .ipv4 x => .ok (.plain 30 [.ofBits x])
  | .ipv6 x => .ok (.plain 31 [.ofBits x])
  | .point p => .ok (.plain 32 [.ofPt p])
  | .ring ps => .ok (.plain 33 [.ofList .ofPt ps])
  | .polygon ps => .ok (.plain 34 [.ofList (.ofList .ofPt) ps])
  | .multiPolygon ps => .ok (.plain 35 [.ofList (.ofList (.ofList .ofPt)) ps])
/-- The items, klickhouse/src/values/mod.rs:74-80. -/
def Value.sers (cfg : Cfg) (r : Rfc3339) : List Value → Res (List SerdeForm)
  | [] => .ok []
  | v :: vs => v.ser cfg r >>= fun c => Value.sers cfg r vs >>= fun cs => .ok (c :: cs)
end

/-- The derived `Deserialize for Value` for variants without values in them, klickhouse/src/values/mod.rs:38-89. -/
def Value.dePlain (cfg : Cfg) (r : Rfc3339) : Nat → List SerdeAtom → Res Value
  | 0, [a] => a.bits 8 >>= fun x => .ok (.int8 x)
  | 1, [a] => a.bits 16 >>= fun x => .ok (.int16 x)
  | 2, [a] => a.bits 32 >>= fun x => .ok (.int32 x)
  | 3, [a] => a.bits 64 >>= fun x => .ok (.int64 x)
  | 4, [a] => a.bits 128 >>= fun x => .ok (.int128 x)
  | 5, [a] => a.wide >>= fun x => .ok (.int256 x)
  | 6, [a] => a.bits 8 >>= fun x => .ok (.uint8 x)
  | 7, [a] => a.bits 16 >>= fun x => .ok (.uint16 x)
  | 8, [a] => a.bits 32 >>= fun x => .ok (.uint32 x)
  | 9, [a] => a.bits 64 >>= fun x => .ok (.uint64 x)
  | 10, [a] => a.bits 128 >>= fun x => .ok (.uint128 x)
  | 11, [a] => a.wide >>= fun x => .ok (.uint256 x)
  | 12, [a] => a.bits 32 >>= fun x => .ok (.float32 x)
  | 13, [a] => a.bits 64 >>= fun x => .ok (.float64 x)
  | 14, [a] => a.bits 16 >>= fun x => .ok (.bfloat16 x)
  | 15, [.size p, a] => a.bits 32 >>= fun x => .ok (.decimal32 p x)
  | 16, [.size p, a] => a.bits 64 >>= fun x => .ok (.decimal64 p x)
  | 17, [.size p, a] => a.bits 128 >>= fun x => .ok (.decimal128 p x)
  | 18, [.size p, a] => a.wide >>= fun x => .ok (.decimal256 p x)
  | 19, [a] => a.list (SerdeAtom.bits 8) >>= fun b => .ok (.string b)
  | 20, [a] => a.bits 128 >>= fun x => .ok (.uuid x)
  | 21, [.text s] => r.dateDe s >>= fun d => .ok (.date d)
  | 22, [.text s] => r.dateTimeDe s >>= fun x => .ok (.dateTime x.1 x.2)
  | 23, [.text s] => r.dynDe cfg s >>= fun x => .ok (.dateTime64 x.1 x.2.1 x.2.2)
  | 24, [a] => a.bits 8 >>= fun x => .ok (.enum8 x)
  | 25, [a] => a.bits 16 >>= fun x => .ok (.enum16 x)
  | 28, [] => .ok .null
  | 30, [a] => a.bits 32 >>= fun x => .ok (.ipv4 x)
  | 31, [a] => a.bits 128 >>= fun x => .ok (.ipv6 x)
  | 32, [a] => a.pt >>= fun p => .ok (.point p)
  | 33, [a] => a.list SerdeAtom.pt >>= fun p => .ok (.ring p)
  | 34, [a] => a.list (SerdeAtom.list SerdeAtom.pt) >>= fun p => .ok (.polygon p)
  | 35, [a] => a.list (SerdeAtom.list (SerdeAtom.list SerdeAtom.pt)) >>= fun p => .ok (.multiPolygon p)
  | _, _ => .err serdeErr

mutual
/-- The derived `Deserialize for Value`, klickhouse/src/values/mod.rs:38-89. -/
def Value.de (cfg : Cfg) (r : Rfc3339) : SerdeForm → Res Value
  | .plain k content => Value.dePlain cfg r k content
  | .one k cs => Value.des cfg r cs >>= fun xs =>
    if k = 26 then .ok (.array xs) else if k = 27 then .ok (.tuple xs) else .err serdeErr
  | .two k cs ds => Value.des cfg r cs >>= fun ks => Value.des cfg r ds >>= fun vs => if k = 29 then .ok (.map ks vs) else .err serdeErr
/-- The items, klickhouse/src/values/mod.rs:74-80. -/
def Value.des (cfg : Cfg) (r : Rfc3339) : List SerdeForm → Res (List Value)
  | [] => .ok []
  | c :: cs => Value.de cfg r c >>= fun v => Value.des cfg r cs >>= fun vs => .ok (v :: vs)
end

end Klick
