import Verif.Sql
/-
The global lock, klickhouse/src/lock.rs, and the execution of migration scripts, klickhouse/src/migrate.rs:117-230, run by any
number of tasks of any number of clients against one server.

Each task is an `async fn` in progress. Its only effects are `Client::execute(text).await`, sleeping, reading the clock, and
spawning the reset of a dropped handle. `Client::execute` is one request: the task asks (`start`), the server runs the text or
loses it (`serve`), the task learns the outcome (`recv`); between these any other task may act. `KlickhouseError` is represented
by the text its `Display` gives, which is all this code looks at.

Tasks share clients, which are named by numbers; a client has one connection. When the connection breaks while a request is out,
`Client::execute` may return an error or `Ok(())` (the stream of blocks just ends, klickhouse/src/client.rs:525-534; see C64, C70),
whether or not the server ran the text; every later request of that client fails without reaching the server.
-/
namespace Klick

/-- `ClickhouseLock`, klickhouse/src/lock.rs:8-13. -/
structure Lock where
  name : Str
  /-- the argument of `with_cluster`, if called -/
  cluster : Option Str
  client : Nat
deriving DecidableEq, Repr

/-- `cluster_str`, klickhouse/src/lock.rs:22-33. -/
def Lock.clusterStr (l : Lock) : Str :=
  match l.cluster with
  | none => []
  | some c => ch! " ON CLUSTER " ++ c

/-- The statement of `try_lock` and `lock`, klickhouse/src/lock.rs:37-40,59-62. -/
def Lock.createText (l : Lock) : Str := ch! "CREATE TABLE _lock_" ++ l.name ++ l.clusterStr ++ ch! " (i Int64)ENGINE=Null"

/-- The statement of `reset`, klickhouse/src/lock.rs:82-89. -/
def Lock.dropText (l : Lock) : Str := ch! "DROP TABLE IF EXISTS _lock_" ++ l.name ++ l.clusterStr ++ ch! " SYNC"

/-- `str::contains`, klickhouse/src/lock.rs:46,69. -/
def strContains (p : Str) : Str → Bool
  | [] => p.isEmpty
  | c :: cs => p.isPrefixOf (c :: cs) || strContains p cs

/-- What `Client::execute` returned: nothing, or an error (its text), klickhouse/src/client.rs:525-534. -/
abbrev Reply := Except Str Unit

/-- How a lock attempt ends, klickhouse/src/lock.rs:42-54,64-76. -/
inductive Attempt where
  | held | busy | failed (e : Str)
deriving DecidableEq, Repr

/-- The `match` on the result of `CREATE TABLE`, klickhouse/src/lock.rs:42-52,65-75. -/
def Attempt.of (r : Reply) : Attempt :=
  match r with
  | .ok _ => .held
  | .error e => if strContains (ch! "already exists") e then .busy else .failed e

/-- The inner loop of `replaceAll`; `skip` characters of a match are still to be passed over, klickhouse/src/migrate.rs:221-223. -/
def replaceGo (pat rep : Str) : Nat → Str → Str
  | _, [] => []
  | skip + 1, _ :: cs => replaceGo pat rep skip cs
  | 0, c :: cs => if pat.isPrefixOf (c :: cs) then rep ++ replaceGo pat rep (pat.length - 1) cs else c :: replaceGo pat rep 0 cs

/-- `str::replace` for a non-empty pattern: matches from the left, without overlap, klickhouse/src/migrate.rs:221-223. -/
def replaceAll (pat rep s : Str) : Str := replaceGo pat rep 0 s

/-- Who runs a batch of migrations: `Client`, or `ClusterMigration` with a cluster name and database,
klickhouse/src/migrate.rs:177-192. -/
structure Migrator where
  cluster : Option (Str × Str)
  client : Nat
deriving DecidableEq, Repr

/-- The lock of a migrator, klickhouse/src/migrate.rs:125,201-202. -/
def Migrator.lock (m : Migrator) : Lock := ⟨ch! "refinery_exec", m.cluster.map Prod.fst, m.client⟩

/-- What is executed for a statement, klickhouse/src/migrate.rs:147,221-224. -/
def Migrator.prepare (m : Migrator) (q : Str) : Str :=
  match m.cluster with
  | none => q
  | some (cluster, database) => replaceAll (ch! "%CLUSTER%") cluster (replaceAll (ch! "%DATABASE%") database q)

/-- Where `AsyncTransaction::execute` is, klickhouse/src/migrate.rs:121-152,197-229. -/
inductive MigPc where
  /-- in `lock.try_lock()` -/
  | acquire (start : Nat) (scripts : List Str)
  /-- in `sleep(250ms)` -/
  | pause (start wake : Nat) (scripts : List Str)
  /-- in `lock.reset()` after 60 s -/
  | force (start : Nat) (scripts : List Str)
  /-- in `Client::execute(q)`; `rest` are the later statements of this script, `scripts` the later scripts -/
  | running (n : Nat) (q : Str) (rest scripts : List Str)
  /-- in `handle.unlock()` -/
  | finish (n : Nat)
  | done (r : Except Str Nat)
deriving Repr

/-- `if query.is_empty() { continue; }` of the inner loop, klickhouse/src/migrate.rs:144-146,218-220. -/
def nextStatement : List Str → Option (Str × List Str)
  | [] => none
  | q :: qs => if q.isEmpty then nextStatement qs else some (q, qs)

/-- The outer loop up to the next statement, klickhouse/src/migrate.rs:137-149,214-226; `lex` is the tokenizer. -/
def Migrator.scriptLoop (m : Migrator) (lex : Str → List Token) : Nat → List Str → MigPc
  | n, [] => .finish n
  | n, s :: ss =>
    if m.cluster.isNone && s.isEmpty then m.scriptLoop lex (n + 1) ss
    else
      match nextStatement (splitQueryStatements (lex s)) with
      | some (q, qs) => .running (n + 1) (m.prepare q) qs ss
      | none => m.scriptLoop lex (n + 1) ss

/-- The inner loop after a statement, klickhouse/src/migrate.rs:143-148,217-225. -/
def Migrator.nextOf (m : Migrator) (lex : Str → List Token) (n : Nat) (rest scripts : List Str) : MigPc :=
  match nextStatement rest with
  | some (q, qs) => .running n (m.prepare q) qs scripts
  | none => m.scriptLoop lex n scripts

/-- Where a task is, klickhouse/src/lock.rs:36-109, migrate.rs:121-152,197-229. -/
inductive Pc where
  /-- in `try_lock`, klickhouse/src/lock.rs:36-55 -/
  | tryLock (l : Lock)
  /-- `try_lock` returned `None` -/
  | refused (l : Lock)
  /-- in the loop of `lock`, klickhouse/src/lock.rs:58-79 -/
  | lock (l : Lock)
  /-- in `sleep(100ms)` of `lock` -/
  | lockSleep (l : Lock) (wake : Nat)
  /-- the caller has the handle -/
  | holds (l : Lock)
  /-- in `unlock`, klickhouse/src/lock.rs:93-96 -/
  | unlock (l : Lock)
  /-- the task `Drop` spawned, klickhouse/src/lock.rs:99-109 -/
  | dropped (l : Lock)
  /-- in `reset`, klickhouse/src/lock.rs:81-89 -/
  | reset (l : Lock)
  /-- a call returned without a handle -/
  | returned (r : Reply)
  /-- running a batch of migrations -/
  | mig (m : Migrator) (p : MigPc)
  /-- the caller let go of the handle, or the task died -/
  | gone
deriving Repr

/-- What an `execute` is for, klickhouse/src/lock.rs:36-109, migrate.rs:121-152,197-229. -/
inductive Purpose where
  | lock | statement | unlock | force
deriving DecidableEq, Repr

/-- The next `Client::execute` of a task, if it is at one, klickhouse/src/lock.rs:36-109, migrate.rs:121-152,197-229. -/
def Pc.request : Pc → Option (Purpose × Str)
  | .tryLock l => some (.lock, l.createText)
  | .lock l => some (.lock, l.createText)
  | .unlock l => some (.unlock, l.dropText)
  | .dropped l => some (.unlock, l.dropText)
  | .reset l => some (.force, l.dropText)
  | .mig m (.acquire _ _) => some (.lock, m.lock.createText)
  | .mig m (.force _ _) => some (.force, m.lock.dropText)
  | .mig _ (.running _ q _ _) => some (.statement, q)
  | .mig m (.finish _) => some (.unlock, m.lock.dropText)
  | _ => none

/-- The client whose connection the requests of a task go through: that of the lock, or of the migrator,
klickhouse/src/lock.rs:42,65,83-88,99-109, klickhouse/src/migrate.rs:125,147,201,224. -/
def Pc.client : Pc → Option Nat
  | .tryLock l | .lock l | .lockSleep l _ | .holds l | .unlock l | .dropped l | .reset l => some l.client
  | .mig m _ => some m.client
  | _ => none

/-- The connection of the task's client has broken, klickhouse/src/client.rs:313-332. -/
def Pc.cut (dead : List Nat) (p : Pc) : Bool :=
  match p.client with
  | some k => dead.contains k
  | none => false

/-- What `Client::execute` says once the connection has broken, klickhouse/src/client.rs:318-326 (`SendError` reads `channel closed`;
a request sent at the very moment of the break gets another text, which this code treats alike). -/
def closedText : Str := ch! "protocol error: failed to send query: channel closed"

/-- What a task does with the outcome, and the tasks it spawns. `now` is the clock, klickhouse/src/lock.rs:36-109, migrate.rs:121-152,197-229. -/
def Pc.resume (lex : Str → List Token) (now : Nat) (r : Reply) : Pc → Pc × List Pc
  | .tryLock l =>
    match Attempt.of r with
    | .held => (.holds l, [])
    | .busy => (.refused l, [])
    | .failed e => (.returned (.error e), [])
  | .lock l =>
    match Attempt.of r with
    | .held => (.holds l, [])
    | .busy => (.lockSleep l (now + 100), [])
    | .failed e => (.returned (.error e), [])
  | .unlock _ => (.returned r, [])
  | .dropped _ => (.gone, [])
  | .reset _ => (.returned r, [])
  | .mig m (.acquire start scripts) =>
    match Attempt.of r with
    | .held => (.mig m (m.scriptLoop lex 0 scripts), [])
    | .busy => (.mig m (.pause start (now + 250) scripts), [])
    | .failed e => (.mig m (.done (.error e)), [])
  | .mig m (.force start scripts) =>
    match r with
    | .ok _ => (.mig m (.acquire start scripts), [])
    | .error e => (.mig m (.done (.error e)), [])
  | .mig m (.running n _ rest scripts) =>
    match r with
    | .ok _ => (.mig m (m.nextOf lex n rest scripts), [])
    | .error e => (.mig m (.done (.error e)), [.dropped m.lock])
  | .mig m (.finish n) =>
    match r with
    | .ok _ => (.mig m (.done (.ok n)), [])
    | .error e => (.mig m (.done (.error e)), [])
  | p => (p, [])

/-- The end of a sleep, klickhouse/src/lock.rs:70, klickhouse/src/migrate.rs:131-134,208-211. -/
def Pc.wake (now : Nat) : Pc → Pc
  | .lockSleep l w => if w ≤ now then .lock l else .lockSleep l w
  | .mig m (.pause start w scripts) =>
    if w ≤ now then (if now - start > 60000 then .mig m (.force start scripts) else .mig m (.acquire start scripts))
    else .mig m (.pause start w scripts)
  | p => p

/-! ### The environment: one server and the schedule (not code of this repository) -/

/-- The text between a prefix and a suffix, klickhouse/src/lock.rs:37-40,59-62,82-89. -/
def between (p s q : Str) : Option Str :=
  if p.isPrefixOf q ∧ s.isSuffixOf q ∧ p.length + s.length ≤ q.length then some ((q.drop p.length).take (q.length - p.length - s.length)) else none

/-- The table a statement creates, if it is a `CREATE TABLE` without `IF NOT EXISTS` of the form used for locks. The table's name
is the first word, klickhouse/src/lock.rs:37-40,59-62. -/
def createdTable (q : Str) : Option Str := (between (ch! "CREATE TABLE ") (ch! " (i Int64)ENGINE=Null") q).map (·.takeWhile (· != ' '))
/-- The table a `DROP TABLE IF EXISTS … SYNC` drops, klickhouse/src/lock.rs:82-89. -/
def droppedTable (q : Str) : Option Str := (between (ch! "DROP TABLE IF EXISTS ") (ch! " SYNC") q).map (·.takeWhile (· != ' '))

/-- The server runs a statement: it creates a table atomically, or refuses with an error that says the table `already exists`; it
drops a table whether or not it exists; any other statement gets any answer and leaves the lock tables alone, klickhouse/src/lock.rs:42-52,65-75. -/
def serverRun (pre post : Str) (verdict : Reply) (q : Str) (tables : List Str) : List Str × Reply :=
  match createdTable q with
  | some t => if t ∈ tables then (tables, .error (pre ++ ch! "already exists" ++ post)) else (t :: tables, .ok ())
  | none =>
    match droppedTable q with
    | some t => (tables.filter (· != t), .ok ())
    | none => (tables, verdict)

/-- What becomes of a request: the server runs it and its answer arrives; it fails without having been run; the connection breaks
before it is run, or after, and the caller is told whatever `r` says, klickhouse/src/lock.rs:42-52,65-75. -/
inductive Fate where
  | runs (pre post : Str) (verdict : Reply)
  | rejected (e : Str)
  | lostBefore (r : Reply)
  | lostAfter (r : Reply)
deriving Repr

/-- A request's progress, klickhouse/src/lock.rs:42,65. -/
inductive Wire where
  | ready | sent | answered (r : Reply)
deriving Repr

/-- A running call: where it is and how far its request is, klickhouse/src/lock.rs:36-109. -/
structure Task where
  pc : Pc
  wire : Wire
deriving Repr

/-- What can be observed, klickhouse/src/lock.rs:36-109. -/
inductive LockEv where
  /-- the server ran a statement of task `i` -/
  | ran (i : Nat) (p : Purpose) (q : Str)
  /-- task `i` learned the outcome -/
  | answer (i : Nat) (p : Purpose) (q : Str) (r : Reply)
deriving Repr

/-- All tasks of all programs and the server: the clock, the tables that exist, and what happened, klickhouse/src/lock.rs:36-109. -/
structure Cloud where
  now : Nat
  tables : List Str
  tasks : List Task
  log : List LockEv
  /-- the clients whose connection has broken -/
  dead : List Nat

/-- A step of the schedule, klickhouse/src/lock.rs:36-109. -/
inductive CloudStep where
  /-- time passes -/
  | tick (ms : Nat)
  | callTryLock (l : Lock) | callLock (l : Lock) | callReset (l : Lock)
  | callMigrate (m : Migrator) (scripts : List Str)
  | start (i : Nat)
  | serve (i : Nat) (f : Fate)
  | recv (i : Nat)
  | wake (i : Nat)
  /-- the holder calls `unlock` -/
  | callUnlock (i : Nat)
  /-- the holder drops the handle -/
  | dropHandle (i : Nat)
  /-- the task dies between two requests, or without learning the outcome of one, and nothing is spawned -/
  | crash (i : Nat)
  /-- the caller drops the future of task `i` at such a point: a handle it owns is dropped with it -/
  | cancel (i : Nat)

/-- The tasks with task `i` replaced. -/
def Cloud.put (c : Cloud) (i : Nat) (t : Task) : Cloud := { c with tasks := c.tasks.set i t }

/-- A call starts a new task, klickhouse/src/lock.rs:36-109. -/
def Cloud.spawn (c : Cloud) (p : Pc) : Cloud := { c with tasks := c.tasks ++ [⟨p, .ready⟩] }

/-- The handles a task owns as local variables: dropping its future drops them. In `unlock` the handle is already taken, klickhouse/src/lock.rs:91-109. -/
def Pc.owned : Pc → List Pc
  | .holds l => [.dropped l]
  | .mig m (.running _ _ _ _) => [.dropped m.lock]
  | _ => []

/-- Tasks spawned, klickhouse/src/lock.rs:99-109. -/
def Cloud.spawns (c : Cloud) (ps : List Pc) : Cloud := { c with tasks := c.tasks ++ ps.map (⟨·, .ready⟩) }

/-- The server deals with the request of task `i`. Nothing is delivered through a broken connection; but what was sent before it broke
may still be run, klickhouse/src/lock.rs:42,65. -/
def Cloud.served (c : Cloud) (i : Nat) (pc : Pc) (p : Purpose) (q : Str) : Fate → Cloud
  | .runs pre post verdict =>
    if pc.cut c.dead then c
    else
      { c with tables := (serverRun pre post verdict q c.tables).1
               tasks := c.tasks.set i ⟨pc, .answered (serverRun pre post verdict q c.tables).2⟩
               log := c.log ++ [.ran i p q] }
  | .rejected e => c.put i ⟨pc, .answered (.error e)⟩
  | .lostBefore r =>
    { c with tasks := c.tasks.set i ⟨pc, .answered r⟩
             dead := pc.client.toList ++ c.dead }
  | .lostAfter r =>
    { c with tables := (serverRun [] [] (.ok ()) q c.tables).1
             tasks := c.tasks.set i ⟨pc, .answered r⟩
             log := c.log ++ [.ran i p q]
             dead := pc.client.toList ++ c.dead }

/-- Task `i` learns the outcome of its request and goes on, klickhouse/src/lock.rs:42-52,65-75. -/
def Cloud.received (lex : Str → List Token) (c : Cloud) (i : Nat) (pc : Pc) (p : Purpose) (q : Str) (r : Reply) : Cloud :=
  { c with tasks := c.tasks.set i ⟨(pc.resume lex c.now r).1, .ready⟩ ++ (pc.resume lex c.now r).2.map (⟨·, .ready⟩)
           log := c.log ++ [.answer i p q r] }

/-- One step; a step that cannot happen leaves everything as it is, klickhouse/src/lock.rs:36-109. -/
def Cloud.step (lex : Str → List Token) (c : Cloud) : CloudStep → Cloud
  | .tick ms => { c with now := c.now + ms }
  | .callTryLock l => c.spawn (.tryLock l)
  | .callLock l => c.spawn (.lock l)
  | .callReset l => c.spawn (.reset l)
  | .callMigrate m scripts => c.spawn (.mig m (.acquire c.now scripts))
  | .start i =>
    match c.tasks[i]? with
    | some ⟨pc, .ready⟩ =>
      if pc.request.isSome then c.put i ⟨pc, if pc.cut c.dead then .answered (.error closedText) else .sent⟩ else c
    | _ => c
  | .serve i f =>
    match c.tasks[i]? with
    | some ⟨pc, .sent⟩ =>
      match pc.request with
      | some (p, q) => c.served i pc p q f
      | none => c
    | _ => c
  | .recv i =>
    match c.tasks[i]? with
    | some ⟨pc, .answered r⟩ =>
      match pc.request with
      | some (p, q) => c.received lex i pc p q r
      | none => c
    | _ => c
  | .wake i =>
    match c.tasks[i]? with
    | some ⟨pc, .ready⟩ => c.put i ⟨pc.wake c.now, .ready⟩
    | _ => c
  | .callUnlock i =>
    match c.tasks[i]? with
    | some ⟨.holds l, .ready⟩ => c.put i ⟨.unlock l, .ready⟩
    | _ => c
  | .dropHandle i =>
    match c.tasks[i]? with
    | some ⟨.holds l, .ready⟩ => (c.put i ⟨.gone, .ready⟩).spawn (.dropped l)
    | _ => c
  | .crash i =>
    match c.tasks[i]? with
    | some ⟨_, .sent⟩ => c
    | some _ => c.put i ⟨.gone, .ready⟩
    | none => c
  | .cancel i =>
    match c.tasks[i]? with
    | some ⟨_, .sent⟩ => c
    | some ⟨pc, _⟩ => (c.put i ⟨.gone, .ready⟩).spawns pc.owned
    | none => c

/-- A run, klickhouse/src/lock.rs:36-109. -/
def Cloud.run (lex : Str → List Token) (c : Cloud) : List CloudStep → Cloud
  | [] => c
  | s :: ss => (c.step lex s).run lex ss

/-- The start: no lock tables, no calls, klickhouse/src/lock.rs:22-33. -/
def Cloud.init : Cloud := ⟨0, [], [], [], []⟩

end Klick
