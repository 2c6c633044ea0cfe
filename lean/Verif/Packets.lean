import Verif.Compress
/-
Packets: klickhouse/src/protocol.rs, internal_client_in.rs, internal_client_out.rs, progress.rs.
-/
namespace Klick

/-- `ServerHello`, klickhouse/src/protocol.rs:91-101. -/
structure ServerHello where
  serverName : Str
  major : Nat
  minor : Nat
  revision : Nat
  timezone : Option Str
  displayName : Option Str
  patch : Nat
deriving DecidableEq, Repr

/-- `ServerException`, klickhouse/src/protocol.rs:110-118. -/
structure ServerException where
  code : BitVec 32
  name : Str
  message : Str
  stackTrace : Str
  hasNested : Bool
deriving DecidableEq, Repr

/-- `ServerException::emit`, klickhouse/src/protocol.rs:120-129. -/
def ServerException.emit (e : ServerException) : Err :=
  .serverException e.code (utf8Encode e.name) (utf8Encode e.message) (utf8Encode e.stackTrace)

/-- `Progress`, klickhouse/src/progress.rs:5-12 (`u64` counters). -/
structure Progress where
  readRows : Nat
  readBytes : Nat
  totalRows : Nat
  writtenRows : Option Nat
  writtenBytes : Option Nat
deriving DecidableEq, Repr

/-- `BlockStreamProfileInfo`, klickhouse/src/protocol.rs:131-140. -/
structure ProfileInfo where
  rows : Nat
  blocks : Nat
  bytes : Nat
  appliedLimit : Bool
  rowsBeforeLimit : Nat
  calculated : Bool
deriving DecidableEq, Repr

/-- `TableStatus`, klickhouse/src/protocol.rs:149-154. -/
structure TableStatus where
  isReplicated : Bool
  absoluteDelay : BitVec 32
deriving DecidableEq, Repr

/-- `ServerPacket`, klickhouse/src/protocol.rs:161-178 (`ServerData` is a name and a block). -/
inductive ServerPacket where
  | hello (h : ServerHello)
  | data (table : Str) (b : Block)
  | exception (e : ServerException)
  | progress (p : Progress)
  | pong
  | endOfStream
  | profileInfo (p : ProfileInfo)
  | totals (table : Str) (b : Block)
  | extremes (table : Str) (b : Block)
  | tablesStatus (m : IMap (IMap TableStatus))
  | log (table : Str) (b : Block)
  | tableColumns (name description : Str)
  | partUuids (ids : List (BitVec 128))
  | readTaskRequest

/-- `read_exception`, klickhouse/src/internal_client_in.rs:36-50. -/
def readException : Rd ServerException :=
  readLe 4 32 >>= fun code => readUtf8String >>= fun name => readUtf8String >>= fun message =>
  readUtf8String >>= fun stack => readU8 >>= fun nested =>
  pure ⟨code, name, message, stack, nested != 0#8⟩

/-- The block of a data packet, klickhouse/src/internal_client_in.rs:72-77: plain, or decompressed when
the crate is built with the `compression` feature (`comp`). -/
def readDataBlock (cfg : Cfg) (comp : Option Lz4) (revision : Nat) : Rd Block :=
  match comp with
  | none => readBlock cfg revision
  | some lz => framed lz (readBlock cfg revision)

/-- `receive_data`, klickhouse/src/internal_client_in.rs:69-80. -/
def readData (cfg : Cfg) (comp : Option Lz4) (revision : Nat) : Rd (Str × Block) :=
  readUtf8String >>= fun name => readDataBlock cfg comp revision >>= fun b => pure (name, b)

/-- A field read only under a condition, klickhouse/src/internal_client_in.rs:86-238. -/
def readIf {α : Type} (c : Bool) (x : Rd α) : Rd (Option α) :=
  if c then x >>= fun a => pure (some a) else pure none

/-- The hello packet, klickhouse/src/internal_client_in.rs:89-119. The comparisons are strict. -/
def readHello : Rd ServerHello :=
  readUtf8String >>= fun name => readVarUint >>= fun major => readVarUint >>= fun minor =>
  readVarUint >>= fun revision =>
  readIf (decide (revision > 54058)) readUtf8String >>= fun tz =>
  readIf (decide (revision > 54372)) readUtf8String >>= fun display =>
  readIf (decide (revision > 54401)) readVarUint >>= fun patch =>
  pure ⟨name, major, minor, revision, tz, display, patch.getD revision⟩

/-- The progress packet, klickhouse/src/internal_client_in.rs:124-149; `revision` is the server's. -/
def readProgress (revision : Nat) : Rd Progress :=
  readVarUint >>= fun rows => readVarUint >>= fun bytes => readVarUint >>= fun total =>
  readIf (decide (revision ≥ 54420)) readVarUint >>= fun wrows =>
  readIf (decide (revision ≥ 54420)) readVarUint >>= fun wbytes =>
  pure ⟨rows, bytes, total, wrows, wbytes⟩

/-- The profile packet, klickhouse/src/internal_client_in.rs:152-167. -/
def readProfileInfo : Rd ProfileInfo :=
  readVarUint >>= fun rows => readVarUint >>= fun blocks => readVarUint >>= fun bytes =>
  readU8 >>= fun applied => readVarUint >>= fun before => readU8 >>= fun calcd =>
  pure ⟨rows, blocks, bytes, applied != 0#8, before, calcd != 0#8⟩

/-- `entry(database).or_default().insert(table, status)`, klickhouse/src/internal_client_in.rs:193-203. -/
def insertStatus (m : IMap (IMap TableStatus)) (db table : Str) (st : TableStatus) : IMap (IMap TableStatus) :=
  m.insert db (((m.get db).getD []).insert table st)

/-- The delay is present only for replicated tables, klickhouse/src/internal_client_in.rs:188-192. -/
def readDelay (replicated : Bool) : Rd (BitVec 32) :=
  if replicated then readVarUint >>= fun n => pure (BitVec.ofNat 32 n) else pure 0

/-- The loop of the table status packet, klickhouse/src/internal_client_in.rs:184-204. -/
def readStatuses : Nat → IMap (IMap TableStatus) → Rd (IMap (IMap TableStatus))
  | 0, m => pure m
  | n + 1, m =>
    readUtf8String >>= fun db => readUtf8String >>= fun table => readU8 >>= fun r =>
    readDelay (r != 0#8) >>= fun delay =>
    readStatuses n (insertStatus m db table ⟨r != 0#8, delay⟩)

/-- The body of `receive_packet` by packet id, klickhouse/src/internal_client_in.rs:88-233 and
`ServerPacketId::from_u64`, protocol.rs:66-88. A log packet is `unimplemented!()`. The allocation for
the part UUIDs is not modelled. -/
def readBody (cfg : Cfg) (comp : Option Lz4) (revision : Nat) (id : Nat) : Rd ServerPacket :=
  match id with
  | 0 => readHello >>= fun h => pure (.hello h)
  | 1 => readData cfg comp revision >>= fun d => pure (.data d.1 d.2)
  | 2 => readException >>= fun e => pure (.exception e)
  | 3 => readProgress revision >>= fun p => pure (.progress p)
  | 4 => pure .pong
  | 5 => pure .endOfStream
  | 6 => readProfileInfo >>= fun p => pure (.profileInfo p)
  | 7 => readData cfg comp revision >>= fun d => pure (.totals d.1 d.2)
  | 8 => readData cfg comp revision >>= fun d => pure (.extremes d.1 d.2)
  | 9 => readVarUint >>= fun size =>
      if size > maxStringSize then Rd.fail .protocol
      else readStatuses size [] >>= fun m => pure (.tablesStatus m)
  | 10 => Rd.panic
  | 11 => readUtf8String >>= fun n => readUtf8String >>= fun d => pure (.tableColumns n d)
  | 12 => readVarUint >>= fun len =>
      if len > maxStringSize then Rd.fail .protocol
      else Rd.rep len (readExact 16 >>= fun b => pure (BitVec.ofNat 128 (unBe b))) >>= fun ids =>
        pure (.partUuids ids)
  | 13 => pure .readTaskRequest
  | _ => Rd.fail .protocol

/-- `receive_packet`, klickhouse/src/internal_client_in.rs:86-238. `revision` is the revision of the
server's hello (0 before it). -/
def readPacket (cfg : Cfg) (comp : Option Lz4) (revision : Nat) : Rd ServerPacket :=
  readVarUint >>= fun id => readBody cfg comp revision id

/-- `receive_hello`, klickhouse/src/internal_client_in.rs:240-248. -/
def receiveHello (cfg : Cfg) (comp : Option Lz4) : Rd ServerHello :=
  readPacket cfg comp 0 >>= fun p =>
  match p with
  | .hello h => pure h
  | .exception e => Rd.fail e.emit
  | _ => Rd.fail .protocol

/-! ### what the client writes -/

/-- `OpenTelemetry`, klickhouse/src/internal_client_out.rs:99-104 (its fields are private and no code
of the crate builds one). -/
structure OpenTelemetry where
  traceId : BitVec 128
  spanId : BitVec 64
  traceState : Bytes
  traceFlags : Byte

/-- `ClientInfo`, klickhouse/src/internal_client_out.rs:35-56; `kind` is the discriminant of
`QueryKind` (internal_client_out.rs:26-33). -/
structure ClientInfo where
  kind : Fin 3
  initialUser : Bytes
  initialQueryId : Bytes
  initialAddress : Bytes
  osUser : Bytes
  hostname : Bytes
  clientName : Bytes
  major : Nat
  minor : Nat
  tcpVersion : Nat
  quotaKey : Bytes
  distributedDepth : Nat
  patch : Nat
  telemetry : Option OpenTelemetry

/-- klickhouse/src/internal_client_out.rs:84-92; `write_u64` of tokio is big-endian. -/
def writeTelemetry : Option OpenTelemetry → Bytes
  | none => [0#8]
  | some t => [1#8] ++ be 16 t.traceId.toNat ++ be 8 t.spanId.toNat ++ writeString t.traceState ++ [t.traceFlags]

/-- `ClientInfo::write`, klickhouse/src/internal_client_out.rs:59-96. -/
def ClientInfo.write (i : ClientInfo) (revision : Nat) : Bytes :=
  BitVec.ofNat 8 i.kind.val ::
    (if i.kind = 0 then []
      else writeString i.initialUser ++ writeString i.initialQueryId ++ writeString i.initialAddress ++ [1#8] ++
        writeString i.osUser ++ writeString i.hostname ++ writeString i.clientName ++
        writeVarUint i.major ++ writeVarUint i.minor ++ writeVarUint i.tcpVersion ++
        (if revision ≥ 54060 then writeString i.quotaKey else []) ++
        (if revision ≥ 54448 then writeVarUint i.distributedDepth else []) ++
        (if revision ≥ 54401 then writeVarUint i.patch else []) ++
        (if revision ≥ 54442 then writeTelemetry i.telemetry else []))

/-- `Query`, klickhouse/src/internal_client_out.rs:116-125; `stage` is the discriminant of
`QueryProcessingStage` (110-117), `compressed` is `!matches!(compression, None)`. -/
structure Query where
  id : Bytes
  info : ClientInfo
  stage : Fin 4
  compressed : Bool
  query : Bytes

/-- `send_query`, klickhouse/src/internal_client_out.rs:136-165. -/
def Query.write (q : Query) (revision : Nat) : Bytes :=
  writeVarUint 1 ++ writeString q.id ++ (if revision ≥ 54032 then q.info.write revision else []) ++
    writeString [] ++ (if revision ≥ 54441 then writeString [] else []) ++ writeVarUint q.stage.val ++
    [if q.compressed then 1#8 else 0#8] ++ writeString q.query

/-- `send_data`, klickhouse/src/internal_client_out.rs:193-225: what was put on the wire (for a plain
block possibly a part) and the outcome. -/
def sendData (cfg : Cfg) (comp : Option Lz4) (b : Block) (name : Bytes) (scalar : Bool) (revision : Nat) : Wr :=
  let head := writeVarUint (if scalar then 7 else 2) ++ writeString name
  match comp with
  | none => (head ++ (b.write cfg revision).1, (b.write cfg revision).2)
  | some lz =>
    match compressData cfg lz b revision with
    | .ok f => (head ++ f, .ok ())
    | .err e => (head, .err e)
    | .panic => (head, .panic)

/-- `send_hello`, klickhouse/src/internal_client_out.rs:228-248; `version` is the crate's version text,
`VERSION_MAJOR`, `VERSION_MINOR` its numbers (klickhouse/src/lib.rs). -/
def writeHello (version : Bytes) (major minor : Nat) (database username password : Bytes) : Bytes :=
  writeVarUint 0 ++ writeString version ++ writeVarUint major ++ writeVarUint minor ++ writeVarUint 54448 ++
    writeString database ++ writeString username ++ writeString password

/-- `dispatch_query`'s parameters, klickhouse/src/client.rs:63-87: the packet for a query text. -/
def clientQuery (id : Bytes) (major minor : Nat) (compressed : Bool) (text : Bytes) : Query where
  id := id
  info :=
    { kind := 1, initialUser := [], initialQueryId := [], initialAddress := utf8Encode (ch!"0.0.0.0:0"),
      osUser := [], hostname := utf8Encode (ch!"localhost"), clientName := utf8Encode (ch!"ClickHouseclient"),
      major := major, minor := minor, tcpVersion := 54448, quotaKey := [], distributedDepth := 1, patch := 1,
      telemetry := none }
  stage := 2
  compressed := compressed
  query := text

/-! ### progress -/

/-- `+` on `u64`: wraps, or panics with overflow checks, klickhouse/src/progress.rs:13-31. -/
def addU64 (cfg : Cfg) (a b : Nat) : Res Nat :=
  if a + b < 2 ^ 64 then .ok (a + b) else if cfg.overflowChecks then .panic else .ok ((a + b) % 2 ^ 64)

/-- `sum_opt`, klickhouse/src/progress.rs:17-22. -/
def sumOpt (cfg : Cfg) : Option Nat → Option Nat → Res (Option Nat)
  | some a, some b => addU64 cfg a b >>= fun c => .ok (some c)
  | some a, none => .ok (some a)
  | none, some b => .ok (some b)
  | none, none => .ok none

/-- `impl Add for Progress`, klickhouse/src/progress.rs:13-31. -/
def Progress.add (cfg : Cfg) (p q : Progress) : Res Progress :=
  addU64 cfg p.readRows q.readRows >>= fun r => addU64 cfg p.readBytes q.readBytes >>= fun b =>
  addU64 cfg p.totalRows q.totalRows >>= fun t => sumOpt cfg p.writtenRows q.writtenRows >>= fun wr =>
  sumOpt cfg p.writtenBytes q.writtenBytes >>= fun wb => .ok ⟨r, b, t, wr, wb⟩

/-- `Progress::default()`, klickhouse/src/progress.rs:5-12. -/
def Progress.zero : Progress := ⟨0, 0, 0, none, none⟩

end Klick
