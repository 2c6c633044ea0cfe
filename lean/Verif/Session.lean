import Verif.Query
import Verif.Convert
/-
A connection from its first byte: the hello exchange, what goes onto the wire, `Client::connect_stream`.
klickhouse/src/client.rs:182-214, 239-332, 525-548; klickhouse/src/manager.rs.

`Conn` (Client.lean) is the task after the hello exchange; here it is preceded by the exchange and each of its writes is given its
bytes. The transport is a sequence of bytes in either direction; TCP, TLS and buffering (`BufReader`, `BufWriter`, flushed after
every packet) are not modelled.
-/
namespace Klick

/-- `ClientOptions`, klickhouse/src/client.rs:239-257 (texts in UTF-8; `tcp_nodelay` is left out). -/
structure Options where
  username : Bytes
  password : Bytes
  database : Bytes

/-- What a build and its environment fix: overflow checks and `bfloat16`, compression (`CompressionMethod::default()` is LZ4 exactly
with the feature, klickhouse/src/protocol.rs:180-196), and the text of the identifier drawn for each query (`Uuid::new_v4`,
klickhouse/src/client.rs:63). -/
structure Env where
  cfg : Cfg
  comp : Option Lz4
  uuid : Ticket → Bytes

/-- The client name sent in the hello, klickhouse/src/internal_client_out.rs:232-237 with the version of klickhouse/Cargo.toml. -/
def helloName : Bytes := utf8Encode (ch! "ClickHouse Rust-Klickhouse 0.15.2")
/-- `VERSION_MAJOR`, klickhouse/src/lib.rs:4. -/
def versionMajor : Nat := 22
/-- `VERSION_MINOR`, klickhouse/src/lib.rs:6. -/
def versionMinor : Nat := 9

/-- The hello of this client, klickhouse/src/client.rs:183-189. -/
def Options.hello (o : Options) : Bytes := writeHello helloName versionMajor versionMinor o.database o.username o.password

/-- The query packet of `dispatch_query`, klickhouse/src/client.rs:63-87. -/
def Env.queryBytes (env : Env) (revision : Nat) (t : Ticket) (text : Str) : Bytes :=
  (clientQuery (env.uuid t) versionMajor versionMinor env.comp.isSome (utf8Encode text)).write revision

/-- A data packet without a table name, klickhouse/src/client.rs:92-104, 119-121. -/
def Env.dataBytes (env : Env) (revision : Nat) (b : Block) : Wr := sendData env.cfg env.comp b [] false revision

/-- The bytes of a completed write. The block that follows a query (klickhouse/src/client.rs:94-99) is the same empty block that
ends an insert. -/
def Env.obsBytes (env : Env) (revision : Nat) : Obs → Bytes
  | .sentQuery t text => env.queryBytes revision t text
  | .sentEmpty _ => (env.dataBytes revision endBlock).1
  | .sentData _ _ b => (env.dataBytes revision b).1
  | _ => []

/-- Whether a write can have completed: the block could be serialised, klickhouse/src/client.rs:92-104,118-123. -/
def Env.completes (env : Env) (revision : Nat) : Obs → Bool
  | .sentEmpty _ => (env.dataBytes revision endBlock).2.isOk
  | .sentData _ _ b => (env.dataBytes revision b).2.isOk
  | _ => true

/-- How far the connection is: nothing done, hello sent, hello received, klickhouse/src/client.rs:182-193. -/
inductive Boot where
  | fresh
  | greeted
  | up (h : ServerHello)

/-- A connection: the exchange, the task and its callers, what was written of the hello, and what was written of a packet that did
not complete, klickhouse/src/client.rs:182-214,297-309. -/
structure Session where
  boot : Boot
  conn : Conn
  greeting : Bytes
  tail : Bytes

/-- `Client::start`, klickhouse/src/client.rs:297-309: the task is spawned. -/
def Session.init : Session := ⟨.fresh, Conn.init, [], []⟩

/-- The revision the client writes for: `server_hello.revision_version`, 0 before the exchange, klickhouse/src/client.rs:190-192. -/
def Boot.revision : Boot → Nat
  | .up h => h.revision
  | _ => 0

/-- Everything the client has put on the wire, klickhouse/src/client.rs:182-208. -/
def Session.wire (env : Env) (s : Session) : Bytes :=
  s.greeting ++ s.conn.log.flatMap (env.obsBytes s.boot.revision) ++ s.tail

/-- The query text of `Client::start`, klickhouse/src/client.rs:305-307. -/
def setText : Str := ch! "SET date_time_input_format='best_effort'"

/-- The ticket of the query `Client::start` executes, klickhouse/src/client.rs:305-307. -/
def startTicket : Ticket := 0

/-- What `execute` (klickhouse/src/client.rs:525-534) has come to after reading `items`: an error ends it, otherwise it goes on.
`RawRow::deserialize_row` never fails. -/
def executeItems (items : List Item) : Res Unit := executeRows (queryStream (fun _ => Res.ok ()) items)

/-- The outcome of a call of `execute` with ticket `t`, klickhouse/src/client.rs:525-534, 313-332: `none` while it is under way. The
request cannot be sent when the task has ended; an unanswered request is an error; then the stream is read to its end or first error. -/
def executeOutcome (s : Conn) (t : Ticket) : Option (Res Unit) :=
  match s.slots t with
  | none => match s.phase with | .dead => some (.err .protocol) | _ => none
  | some .waiting => none
  | some .failed => some (.err .protocol)
  | some (.streaming buf sender) =>
    match executeItems (s.log.filterMap fun | .read t' i => if t' = t then some i else none | _ => none) with
    | .panic => some .panic
    | .err e => some (.err e)
    | .ok () => if buf.isEmpty && !sender then some (.ok ()) else none

/-- The outcome of `Client::connect_stream`, klickhouse/src/client.rs:260-272, 297-309. -/
def connectOutcome (s : Conn) : Option (Res Unit) := executeOutcome s startTicket

/-- `Client::is_closed`, klickhouse/src/client.rs:546-548 (and `has_broken`, klickhouse/src/manager.rs:48-50): the receiver of requests is gone. -/
def Conn.isClosed (s : Conn) : Bool :=
  match s.phase with
  | .dead => true
  | _ => false

/-- The packet being written when event `e` ends the task in state `s` (client.rs:62-106, 118-123, 147-149, 166-168). -/
def Env.attempted (env : Env) (revision : Nat) (s : Conn) : Event → Bytes
  | .handle k =>
    match s.queue with
    | .query t text :: _ => if k = 0 then env.queryBytes revision t text else (env.dataBytes revision endBlock).1
    | .data _ _ b :: _ => (env.dataBytes revision b).1
    | [] => []
  | .packet k .endOfStream | .deliver k =>
    match s.pending with
    | (t, text) :: _ => if k = 0 then env.queryBytes revision t text else (env.dataBytes revision endBlock).1
    | [] => []
  | _ => []

/-- What can happen to a connection, klickhouse/src/client.rs:182-214. -/
inductive SEvent where
  /-- the task writes its hello; `some n`: the transport fails after `n` bytes -/
  | greet (cut : Option Nat)
  /-- the bytes on which `receive_hello` decides; bytes behind the hello belong to later packets -/
  | answer (bytes : Bytes)
  /-- the transport fails before the answer is complete, or the answer never comes -/
  | lost
  /-- an event of the running task or its callers; `cut` is how much of a packet that does not complete is written -/
  | conn (e : Event) (cut : Nat)

/-- Who may do what: `Client::start` submits its query; other requests need the client it returns; and the task serves requests and
packets only after the exchange (klickhouse/src/client.rs:182-208). -/
def Session.allowed (s : Session) : Event → Bool
  | .submit t text =>
    if t = startTicket then text == setText
    else match connectOutcome s.conn with | some (.ok ()) => true | _ => false
  | .submitData _ _ _ => match connectOutcome s.conn with | some (.ok ()) => true | _ => false
  | .recv _ | .drop _ => true
  | _ => match s.boot with | .up _ => true | _ => false

/-- One step, klickhouse/src/client.rs:182-214 and Conn.step; `none` when the event cannot happen now. -/
def Session.step (env : Env) (opts : Options) (s : Session) : SEvent → Option Session
  | .greet cut =>
    match s.boot, cut with
    | .fresh, none => some { s with boot := .greeted, greeting := opts.hello }
    | .fresh, some n => some { s with boot := .greeted, greeting := opts.hello.take n, conn := s.conn.kill }
    | _, _ => none
  | .answer bytes =>
    match s.boot, s.conn.phase with
    | .greeted, .idle =>
      match receiveHello env.cfg env.comp bytes with
      | .ok (h, _) => some { s with boot := .up h }
      | _ => some { s with conn := s.conn.kill }
    | _, _ => none
  | .lost =>
    match s.boot, s.conn.phase with
    | .greeted, .idle => some { s with conn := s.conn.kill }
    | _, _ => none
  | .conn e cut =>
    if s.allowed e then
      (s.conn.step e).bind fun c =>
        if (c.log.drop s.conn.log.length).all (env.completes s.boot.revision) then
          some { s with conn := c, tail := if c.isClosed && !s.conn.isClosed then (env.attempted s.boot.revision s.conn e).take cut else s.tail }
        else none
    else none

/-- A whole history, klickhouse/src/client.rs:182-214. -/
def Session.run (env : Env) (opts : Options) : Session → List SEvent → Option Session
  | s, [] => some s
  | s, e :: es => (s.step env opts e).bind fun s => s.run env opts es

/-! ### manager.rs -/

/-- The outcome of `ConnectionManager::connect`, klickhouse/src/manager.rs:35-41, with the prequel executed under ticket `t`. -/
def managerOutcome (prequel : Option Str) (s : Conn) (t : Ticket) : Option (Res Unit) :=
  match connectOutcome s, prequel with
  | some (.ok ()), some _ => executeOutcome s t
  | r, _ => r

/-- `UnitValue::deserialize_row`, klickhouse/src/convert/unit_value.rs:16-22: the first cell. -/
def unitRow {T : Type} (fromSql : Ty → Value → Res T) : TRow → Res T
  | [] => .err (.missingField (ch! "<unit>"))
  | (_, t, v) :: _ => fromSql t v

/-- The outcome of a call of `query_one` with ticket `t`, klickhouse/src/client.rs:503-513: the first row or error of its stream, an
error when the stream ends without any. -/
def queryOneOutcome {T : Type} (de : TRow → Res T) (s : Conn) (t : Ticket) : Option (Res T) :=
  match s.slots t with
  | none => match s.phase with | .dead => some (.err .protocol) | _ => none
  | some .waiting => none
  | some .failed => some (.err .protocol)
  | some (.streaming buf sender) =>
    match queryStream de (s.log.filterMap fun | .read t' i => if t' = t then some i else none | _ => none) with
    | [] => if buf.isEmpty && !sender then some (.err .missingRow) else none
    | x :: _ => some x

/-- The query of `is_valid`, klickhouse/src/manager.rs:44. -/
def validText : Str := ch! "select '';"

/-- The outcome of a pool's `is_valid`, klickhouse/src/manager.rs:43-46: `query_one` of a single text. -/
def isValidOutcome (s : Conn) (t : Ticket) : Option (Res Unit) :=
  (queryOneOutcome (unitRow stringFromSql) s t).map (fun r => r >>= fun _ => .ok ())

end Klick
