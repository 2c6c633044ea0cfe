import Verif.Session
import Verif.Spec.Packets
import Verif.Spec.Block
import Verif.Spec.Client
/-
Specification vocabulary for whole connections (C69, C70): a server reading everything a client writes.
-/
namespace Klick.Spec
open Klick

/-- What a server takes from the stream after the hello. -/
inductive ClientPacket where
  | query (q : SeenQuery)
  | data (table : Bytes) (b : Block)

/-- How a server reads the block of a data packet: plain or in compressed frames. The block format is the one of C14 (its layout is
stated by C04-C11), the frames those of C42. -/
def takeBlock (cfg : Cfg) (lz : Lz4) (revision : Nat) (compressed : Bool) (s : Bytes) : Option (Block × Bytes) :=
  match readDataBlock cfg (if compressed then some lz else none) revision s with
  | .ok r => some r
  | _ => none

/-- One packet: the packet id decides. `compressed` is what the last query asked for. -/
def takePacket (cfg : Cfg) (lz : Lz4) (revision : Nat) (compressed : Bool) (s : Bytes) : Option (ClientPacket × Bytes) :=
  match takeVarint s with
  | some (1, _) => (takeQuery revision s).map fun (q, s) => (.query q, s)
  | some (2, _) => (takeDataHead s).bind fun (h, s) => (takeBlock cfg lz revision compressed s).map fun (b, s) => (.data h.2 b, s)
  | _ => none

/-- What the server knows about compression after a packet. -/
def ClientPacket.flag (compressed : Bool) : ClientPacket → Bool
  | .query q => q.compression == 1
  | .data _ _ => compressed

/-- Exactly `n` packets; the bytes left. -/
def takeMany (cfg : Cfg) (lz : Lz4) (revision : Nat) : Nat → Bool → Bytes → Option (List ClientPacket × Bytes)
  | 0, _, s => some ([], s)
  | n + 1, c, s =>
    (takePacket cfg lz revision c s).bind fun (p, s) =>
      (takeMany cfg lz revision n (p.flag c) s).map fun (ps, s) => (p :: ps, s)

/-- The revision both sides speak: the lower of the server's and the 54448 the client announces. -/
def spoken (server : Nat) : Nat := min server 54448

/-- Writes of the client, in order. -/
def isSent : Obs → Bool
  | .sentQuery _ _ | .sentEmpty _ | .sentData _ _ _ => true
  | _ => false

/-- The same data: same row count, same columns in the same order with the same types, and in every column the same values (in the
normal form of C06). -/
def SameData (b b' : Block) : Prop :=
  b'.rows = b.rows ∧ b'.columnTypes = b.columnTypes ∧ b'.columnData.keys = b.columnTypes.keys ∧
    ∀ name t vs, (name, t) ∈ b.columnTypes → b.columnData.get name = some vs → b'.columnData.get name = some (vs.map (canon t))

/-- A packet the server reads is the write the client made: a query with its identifier and its text, complete processing, no
settings and the compression the client uses; the empty block after it; a block of an insert with its data. -/
def IsWrite (compressed : Bool) (uuid : Ticket → Bytes) : Obs → ClientPacket → Prop
  | .sentQuery t text, .query q =>
    q.id = uuid t ∧ q.text = utf8Encode text ∧ q.stage = 2 ∧ q.settings = [] ∧ q.compression = if compressed then 1 else 0
  | .sentEmpty _, .data table b => table = [] ∧ b.rows = 0 ∧ b.columnTypes = [] ∧ b.columnData = []
  | .sentData _ _ b, .data table b' => table = [] ∧ SameData b b'
  | _, _ => False

/-- A block the protocol can carry (C14), within the frame limits of C42 when compressed. -/
def Carried (env : Env) (revision : Nat) (b : Block) : Prop :=
  BlockOk env.cfg b ∧
    ∀ lz, env.comp = some lz → ∃ c, lz.compress (b.write env.cfg revision).1 = some c ∧ c.length + 9 ≤ 2 ^ 30 ∧
      (b.write env.cfg revision).1.length < 2 ^ 31

/-- What is assumed of the environment: the decompressor undoes the compressor, and query identifiers are short. -/
structure Sane (env : Env) (lz : Lz4) : Prop where
  same : env.comp = none ∨ env.comp = some lz
  inverse : ∀ raw c, lz.compress raw = some c → lz.decompress c (raw.length + 1) = some raw
  uuid : ∀ t, (env.uuid t).length < 2 ^ 63

/-- A write of something a caller submitted: a query with its text, a block of an insert; the empty block is the client's own. -/
def Submitted (l : List Obs) : Obs → Prop
  | .sentQuery t text => (t, text) ∈ queriesSubmitted l
  | .sentData d owner b => (d, owner, b) ∈ blocksSubmitted l
  | .sentEmpty _ => True
  | _ => False

/-- The texts of the queries a server has read. -/
def textsSeen (ps : List ClientPacket) : List Bytes := ps.filterMap fun | .query q => some q.text | _ => none

/-- The states a connection can be in. -/
def SReachable (env : Env) (opts : Options) (s : Session) : Prop := ∃ es, Session.init.run env opts es = some s

end Klick.Spec
