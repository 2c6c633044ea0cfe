import Verif.Dates
/-
The serde implementations of the date and time types (feature `serde`): klickhouse/src/values/date.rs:16-35,96-122,220-278.
The texts are made and read by chrono (external), given here as parameters: `Rfc3339` below. The serializer and
deserializer (serde_json, …) are taken to carry a string unchanged.
-/
namespace Klick

/-- What chrono and chrono-tz provide. `offset tz secs` is the offset of local time from UTC, in seconds, in a zone at an
instant. `format` writes a local time (seconds since 1970-01-01T00:00:00 of the wall clock), its nanoseconds and an offset in
whole minutes; `parse` reads such a text. `formatDay`, `parseDay` are serde's form of `NaiveDate`, klickhouse/src/values/date.rs:96-122. -/
structure Rfc3339 where
  offset : Tz → Int → Int
  format : Int → Nat → Int → Str
  parse : Str → Option (Int × Nat × Int)
  formatDay : Int → Str
  parseDay : Str → Option Int

/-- The error of the serializer or deserializer (`serde::ser::Error::custom`, `serde::de::Error::custom`); its text is not modelled,
klickhouse/src/values/date.rs:102-104,115-120. -/
def serdeErr : Err := .deserialize []

/-- chrono's `to_rfc3339` shows the offset rounded to the nearest minute (halves away from zero), klickhouse/src/values/date.rs:105. -/
def roundMinutes (o : Int) : Int := if o < 0 then -((-o + 30) / 60) else (o + 30) / 60

/-- `DateTime<Tz>::to_rfc3339` (chrono): the local time, and the offset in minutes, klickhouse/src/values/date.rs:105. -/
def Rfc3339.text (r : Rfc3339) (tz : Tz) (i : Inst) : Str :=
  r.format (i.secs + r.offset tz i.secs) i.nanos (roundMinutes (r.offset tz i.secs))

/-- `DateTime::<FixedOffset>::parse_from_rfc3339(..)` (chrono) and `naive_utc()`, klickhouse/src/values/date.rs:114-117,238-243. -/
def Rfc3339.read (r : Rfc3339) (s : Str) : Res Inst :=
  match r.parse s with
  | some (l, n, m) => .ok ⟨l - 60 * m, n⟩
  | none => .err serdeErr

/-- `Serialize for Date`, klickhouse/src/values/date.rs:16-25. -/
def Rfc3339.dateSer (r : Rfc3339) (d : BitVec 16) : Res Str := .ok (r.formatDay (dateToDay d))

/-- `Deserialize for Date`, klickhouse/src/values/date.rs:27-35. -/
def Rfc3339.dateDe (r : Rfc3339) (s : Str) : Res (BitVec 16) :=
  match r.parseDay s with
  | some day => .ok (dateOfDay day)
  | none => .err serdeErr

/-- `Serialize for DateTime`, klickhouse/src/values/date.rs:96-107. -/
def Rfc3339.dateTimeSer (r : Rfc3339) (x : Tz × BitVec 32) : Res Str :=
  dateTimeToInst x.2 >>= fun i => .ok (r.text x.1 i)

/-- `Deserialize for DateTime`, klickhouse/src/values/date.rs:109-122: the zone becomes UTC (188-196). -/
def Rfc3339.dateTimeDe (r : Rfc3339) (s : Str) : Res (Tz × BitVec 32) :=
  r.read s >>= fun i => dateTimeOfChrono serdeErr tzUTC i

/-- `Serialize for DateTime64<P>`, klickhouse/src/values/date.rs:250-261. -/
def Rfc3339.dt64Ser (r : Rfc3339) (cfg : Cfg) (p : Nat) (x : Tz × BitVec 64) : Res Str :=
  dt64ToInst cfg serdeErr p x.2.toNat >>= fun i => .ok (r.text x.1 i)

/-- `Deserialize for DateTime64<P>`, klickhouse/src/values/date.rs:263-278: the zone becomes UTC. -/
def Rfc3339.dt64De (r : Rfc3339) (cfg : Cfg) (p : Nat) (s : Str) : Res (Tz × BitVec 64) :=
  r.read s >>= fun i => dt64OfInst cfg serdeErr p i >>= fun v => .ok (tzUTC, BitVec.ofNat 64 v)

/-- `Serialize for DynDateTime64`, klickhouse/src/values/date.rs:220-231. -/
def Rfc3339.dynSer (r : Rfc3339) (cfg : Cfg) (x : Tz × BitVec 64 × Nat) : Res Str :=
  dt64ToInst cfg serdeErr x.2.2 x.2.1.toNat >>= fun i => .ok (r.text x.1 i)

/-- `Deserialize for DynDateTime64`, klickhouse/src/values/date.rs:233-248: the precision is always 6. -/
def Rfc3339.dynDe (r : Rfc3339) (cfg : Cfg) (s : Str) : Res (Tz × BitVec 64 × Nat) :=
  r.read s >>= fun i => dt64OfInst cfg serdeErr 6 i >>= fun v => .ok (tzUTC, BitVec.ofNat 64 v, 6)

end Klick
