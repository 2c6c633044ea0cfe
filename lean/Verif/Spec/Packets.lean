import Verif.Packets
/-
Specification vocabulary for packets (C39-C41): the native protocol as the server writes and reads it,
from the protocol's definition, without the client's own writers.
-/
namespace Klick.Spec
open Klick

/-- LEB128: seven bits per octet, low bits first, the high bit set on all octets but the last. -/
def varint (n : Nat) : Bytes :=
  if n < 128 then [BitVec.ofNat 8 n] else BitVec.ofNat 8 (n % 128 + 128) :: varint (n / 128)
termination_by n
decreasing_by omega

/-- A length-prefixed byte string. -/
def str (b : Bytes) : Bytes := varint b.length ++ b
/-- A length-prefixed text. -/
def text (s : Str) : Bytes := str (utf8Encode s)
/-- A flag octet. -/
def flag (b : Bool) : Bytes := [if b then 1#8 else 0#8]

/-- A text the protocol can carry. -/
def TextFits (s : Str) : Prop := (utf8Encode s).length ≤ 2 ^ 30

/-- The server's hello: name, version, revision, then time zone, display name and patch level, each
since its own revision. -/
def helloPacket (name : Str) (major minor revision : Nat) (tz display : Str) (patch : Nat) : Bytes :=
  varint 0 ++ text name ++ varint major ++ varint minor ++ varint revision ++
    (if 54058 ≤ revision then text tz else []) ++
    (if 54372 ≤ revision then text display else []) ++
    (if 54401 ≤ revision then varint patch else [])

/-- An exception without its nested exceptions. -/
def exceptionBody (code : BitVec 32) (name message stack : Str) (nested : Bool) : Bytes :=
  le 4 code.toNat ++ text name ++ text message ++ text stack ++ flag nested

/-- A server exception as the server sends it: each exception says whether a nested one follows. -/
def exceptionChain : List (BitVec 32 × Str × Str × Str) → Bytes
  | [] => []
  | (c, n, m, s) :: rest => exceptionBody c n m s (!rest.isEmpty) ++ exceptionChain rest

/-- Progress: rows, bytes and total rows, and since revision 54420 written rows and bytes. -/
def progressPacket (revision rows bytes total wrows wbytes : Nat) : Bytes :=
  varint 3 ++ varint rows ++ varint bytes ++ varint total ++
    (if 54420 ≤ revision then varint wrows ++ varint wbytes else [])

/-- Profile information. -/
def profilePacket (rows blocks bytes : Nat) (limit : Bool) (before : Nat) (calcd : Bool) : Bytes :=
  varint 6 ++ varint rows ++ varint blocks ++ varint bytes ++ flag limit ++ varint before ++ flag calcd

/-- One line of a table status response; the delay is sent for replicated tables only. -/
structure StatusLine where
  db : Str
  table : Str
  delay : Option Nat

/-- The bytes of a line. -/
def StatusLine.bytes (l : StatusLine) : Bytes :=
  text l.db ++ text l.table ++
    (match l.delay with
      | some d => flag true ++ varint d
      | none => flag false)

/-- A line the protocol can carry. -/
def StatusLine.Ok (l : StatusLine) : Prop := TextFits l.db ∧ TextFits l.table ∧ ∀ d ∈ l.delay, d < 2 ^ 32

/-- The status a line stands for. -/
def StatusLine.status (l : StatusLine) : TableStatus := ⟨l.delay.isSome, BitVec.ofNat 32 (l.delay.getD 0)⟩

/-- A table status response. -/
def statusPacket (ls : List StatusLine) : Bytes := varint 9 ++ varint ls.length ++ ls.flatMap StatusLine.bytes

/-- The status of a table according to the lines: the last line naming it. -/
def statusOf (ls : List StatusLine) (db table : Str) : Option TableStatus :=
  (ls.reverse.find? (fun l => l.db == db && l.table == table)).map StatusLine.status

/-- Part identifiers as the client expects them: sixteen octets each, most significant first. -/
def partsPacket (ids : List (BitVec 128)) : Bytes :=
  varint 12 ++ varint ids.length ++ ids.flatMap (fun i => be 16 i.toNat)

/-- Part identifiers as a `UUID` column carries them (two little-endian halves, high half first). -/
def partsAsUuid (ids : List (BitVec 128)) : Bytes :=
  varint 12 ++ varint ids.length ++ ids.flatMap (fun i => le 8 (i.toNat / 2 ^ 64) ++ le 8 (i.toNat % 2 ^ 64))

/-- The kinds of packets that carry a block. -/
inductive DataKind where
  | data | totals | extremes

/-- Their packet ids. -/
def DataKind.id : DataKind → Nat
  | data => 1
  | totals => 7
  | extremes => 8

/-- The packet as the caller sees it. -/
def DataKind.packet : DataKind → Str → Block → ServerPacket
  | data => .data
  | totals => .totals
  | extremes => .extremes

/-- A packet with the (possibly compressed) bytes of a block. -/
def dataPacket (k : DataKind) (table : Str) (block : Bytes) : Bytes := varint k.id ++ text table ++ block

/-! ### the server reading the client's packets

Written from the protocol's definition; a server of revision `r` reads the fields introduced up to `r`. -/

/-- LEB128, to the end. -/
def takeVarint : Bytes → Option (Nat × Bytes)
  | [] => none
  | b :: s =>
    if b.toNat < 128 then some (b.toNat, s)
    else (takeVarint s).map (fun p => (b.toNat - 128 + 128 * p.1, p.2))

/-- A length-prefixed byte string. -/
def takeStr (s : Bytes) : Option (Bytes × Bytes) :=
  (takeVarint s).bind fun p => if p.1 ≤ p.2.length then some (p.2.take p.1, p.2.drop p.1) else none

/-- One octet. -/
def takeByte : Bytes → Option (Byte × Bytes)
  | [] => none
  | b :: s => some (b, s)

/-- A field present under a condition. -/
def takeIf {α : Type} (c : Bool) (x : Bytes → Option (α × Bytes)) (s : Bytes) : Option (Option α × Bytes) :=
  if c then (x s).map (fun p => (some p.1, p.2)) else some (none, s)

/-- What a server takes from the client information of a query packet. -/
structure SeenInfo where
  kind : Byte
  initialUser : Bytes
  initialQueryId : Bytes
  initialAddress : Bytes
  interface : Byte
  osUser : Bytes
  hostname : Bytes
  clientName : Bytes
  major : Nat
  minor : Nat
  tcpVersion : Nat
  quotaKey : Option Bytes
  distributedDepth : Option Nat
  patch : Option Nat
  traced : Option Byte
deriving DecidableEq

/-- Client information; kind 0 (no query) ends it at once. A trace (a non-zero `traced` octet) would
carry further fields, which this reader does not take. -/
def takeInfo (r : Nat) (s : Bytes) : Option (Option SeenInfo × Bytes) := do
  let (kind, s) ← takeByte s
  if kind = 0 then return (none, s)
  let (initialUser, s) ← takeStr s
  let (initialQueryId, s) ← takeStr s
  let (initialAddress, s) ← takeStr s
  let (interface, s) ← takeByte s
  let (osUser, s) ← takeStr s
  let (hostname, s) ← takeStr s
  let (clientName, s) ← takeStr s
  let (major, s) ← takeVarint s
  let (minor, s) ← takeVarint s
  let (tcpVersion, s) ← takeVarint s
  let (quotaKey, s) ← takeIf (r ≥ 54060) takeStr s
  let (distributedDepth, s) ← takeIf (r ≥ 54448) takeVarint s
  let (patch, s) ← takeIf (r ≥ 54401) takeVarint s
  let (traced, s) ← takeIf (r ≥ 54442) takeByte s
  return (some ⟨kind, initialUser, initialQueryId, initialAddress, interface, osUser, hostname, clientName,
    major, minor, tcpVersion, quotaKey, distributedDepth, patch, traced⟩, s)

/-- Settings: name, flags, value, until an empty name. -/
def takeSettings : Nat → Bytes → Option (List (Bytes × Nat × Bytes) × Bytes)
  | 0, _ => none
  | fuel + 1, s => do
    let (name, s) ← takeStr s
    if name = [] then return ([], s)
    let (flags, s) ← takeVarint s
    let (value, s) ← takeStr s
    let (rest, s) ← takeSettings fuel s
    return ((name, flags, value) :: rest, s)

/-- What a server takes from a query packet. -/
structure SeenQuery where
  id : Bytes
  info : Option (Option SeenInfo)
  settings : List (Bytes × Nat × Bytes)
  secret : Option Bytes
  stage : Nat
  compression : Nat
  text : Bytes
deriving DecidableEq

/-- A query packet (id 1). -/
def takeQuery (r : Nat) (s : Bytes) : Option (SeenQuery × Bytes) := do
  let (packet, s) ← takeVarint s
  if packet ≠ 1 then none
  let (id, s) ← takeStr s
  let (info, s) ← takeIf (r ≥ 54032) (takeInfo r) s
  let (settings, s) ← takeSettings (s.length + 1) s
  let (secret, s) ← takeIf (r ≥ 54441) takeStr s
  let (stage, s) ← takeVarint s
  let (compression, s) ← takeVarint s
  let (text, s) ← takeStr s
  return (⟨id, info, settings, secret, stage, compression, text⟩, s)

/-- What a server takes from the client's hello. -/
structure SeenHello where
  clientName : Bytes
  major : Nat
  minor : Nat
  revision : Nat
  database : Bytes
  user : Bytes
  password : Bytes
deriving DecidableEq

/-- A hello packet (id 0). -/
def takeHello (s : Bytes) : Option (SeenHello × Bytes) := do
  let (packet, s) ← takeVarint s
  if packet ≠ 0 then none
  let (clientName, s) ← takeStr s
  let (major, s) ← takeVarint s
  let (minor, s) ← takeVarint s
  let (revision, s) ← takeVarint s
  let (database, s) ← takeStr s
  let (user, s) ← takeStr s
  let (password, s) ← takeStr s
  return (⟨clientName, major, minor, revision, database, user, password⟩, s)

/-- The head of a data packet: id 2 (data) or 7 (scalar), and the table name. -/
def takeDataHead (s : Bytes) : Option ((Nat × Bytes) × Bytes) := do
  let (packet, s) ← takeVarint s
  let (name, s) ← takeStr s
  return ((packet, name), s)

end Klick.Spec
