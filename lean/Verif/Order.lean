import Verif.Numeric
/-
The derived orderings (`#[derive(PartialOrd, Ord)]`) of the wrapper types: klickhouse/src/values/int256.rs:10,69,
klickhouse/src/values/ip.rs:9,46, klickhouse/src/values/date.rs:13, klickhouse/src/values/fixed_point.rs:9,51,93,135.
A derived ordering of a struct with one field is that of the field; arrays are ordered element by element, the first
difference decides (`core::array`), and so are addresses: `Ipv4Addr` by its four octets, `Ipv6Addr` by its eight segments.
-/
namespace Klick

/-- `Ord` for arrays and slices, klickhouse/src/values/int256.rs:10-13,69-72. -/
def lexCmp : List Nat → List Nat → Ordering
  | [], [] => .eq
  | [], _ :: _ => .lt
  | _ :: _, [] => .gt
  | a :: as, b :: bs => if a < b then .lt else if b < a then .gt else lexCmp as bs

/-- The derived order of `u256`, klickhouse/src/values/int256.rs:69-72: the array, most significant byte first. -/
def u256Cmp (x y : BitVec 256) : Ordering := lexCmp ((bytes256 x).map BitVec.toNat) ((bytes256 y).map BitVec.toNat)

/-- The derived order of `i256`, klickhouse/src/values/int256.rs:10-13: the array of *unsigned* bytes. -/
def i256Cmp (x y : BitVec 256) : Ordering := lexCmp ((bytes256 x).map BitVec.toNat) ((bytes256 y).map BitVec.toNat)

/-- The derived order of `FixedPoint256`, klickhouse/src/values/fixed_point.rs:135-136: that of the `i256` inside. -/
def fp256Cmp (x y : BitVec 256) : Ordering := i256Cmp x y

/-- The octets of an IPv4 address (`Ipv4Addr::octets`), klickhouse/src/values/ip.rs:9-11. -/
def octets (x : BitVec 32) : Bytes := be 4 x.toNat

/-- The derived order of `Ipv4`, klickhouse/src/values/ip.rs:9-11, and that of `Ipv4Addr` (`std`): by octets. -/
def ipv4Cmp (x y : BitVec 32) : Ordering := lexCmp ((octets x).map BitVec.toNat) ((octets y).map BitVec.toNat)

/-- The segments of an IPv6 address (`Ipv6Addr::segments`): eight numbers of 16 bits, klickhouse/src/values/ip.rs:46-48. -/
def segments (x : BitVec 128) : List Nat := [7, 6, 5, 4, 3, 2, 1, 0].map (fun i => x.toNat / 65536 ^ i % 65536)

/-- The derived order of `Ipv6`, klickhouse/src/values/ip.rs:46-48, and that of `Ipv6Addr` (`std`): by segments. -/
def ipv6Cmp (x y : BitVec 128) : Ordering := lexCmp (segments x) (segments y)

/-- The derived order of `Date`, klickhouse/src/values/date.rs:13-14: that of the `u16` inside. -/
def dateCmp (x y : BitVec 16) : Ordering := compare x.toNat y.toNat

/-- The derived order of `FixedPoint32`, `64` and `128`, klickhouse/src/values/fixed_point.rs:9-10,51-52,93-94: that of the
signed integer inside. -/
def fpCmp {w : Nat} (x y : BitVec w) : Ordering := compare x.toInt y.toInt

end Klick
