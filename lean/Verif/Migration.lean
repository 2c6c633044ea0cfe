import Verif.Derive
import Verif.Query
/-
Reading of applied migrations: klickhouse/src/migrate.rs:11-115,155-163,232-243. External: `OffsetDateTime::parse` (RFC 3339, crate `time`),
a parameter; `refinery_core` itself.
-/
namespace Klick

/-- `refinery_core::Migration::applied`: what a migration read from the table consists of; `θ` is the type of instants, klickhouse/src/migrate.rs:74-106. -/
structure AppliedMigration (θ : Type) where
  version : BitVec 32
  name : Str
  appliedOn : θ
  checksum : Nat
deriving Repr

/-- The local variables of `deserialize_row`, klickhouse/src/migrate.rs:29-32. -/
structure MigrationVars where
  version : Option (BitVec 32) := none
  name : Option Str := none
  appliedOn : Option Str := none
  checksum : Option Str := none

/-- `i32::from_sql`, klickhouse/src/convert/std_deserialize.rs. -/
def i32FromSql (t : Ty) (v : Value) : Res (BitVec 32) := Prim.fromSql .i32 t v

/-- One turn of the loop of `deserialize_row`, klickhouse/src/migrate.rs:33-73. -/
def MigrationVars.turn (st : MigrationVars) (c : Cell) : Res MigrationVars :=
  if c.1 = ch! "version" then
    if st.version.isSome then .err (.deserialize (ch! "duplicate version column"))
    else i32FromSql c.2.1 c.2.2 >>= fun x => .ok { st with version := some x }
  else if c.1 = ch! "name" then
    if st.name.isSome then .err (.deserialize (ch! "duplicate name column"))
    else stringFromSql c.2.1 c.2.2 >>= fun x => .ok { st with name := some x }
  else if c.1 = ch! "applied_on" then
    if st.appliedOn.isSome then .err (.deserialize (ch! "duplicate applied_on column"))
    else stringFromSql c.2.1 c.2.2 >>= fun x => .ok { st with appliedOn := some x }
  else if c.1 = ch! "checksum" then
    if st.checksum.isSome then .err (.deserialize (ch! "duplicate checksum column"))
    else stringFromSql c.2.1 c.2.2 >>= fun x => .ok { st with checksum := some x }
  else .err (.deserialize (ch! "unexpected column " ++ c.1))

/-- The loop of `deserialize_row`, klickhouse/src/migrate.rs:33-73. -/
def MigrationVars.loop : MigrationVars → List Cell → Res MigrationVars
  | st, [] => .ok st
  | st, c :: cs => st.turn c >>= fun st => MigrationVars.loop st cs

/-- After the loop, klickhouse/src/migrate.rs:74-106. The texts of the errors of the two parsers are left out. -/
def MigrationVars.build {θ : Type} (parseTime : Str → Option θ) (st : MigrationVars) : Res (AppliedMigration θ) :=
  match st.version with
  | none => .err (.deserialize (ch! "missing version"))
  | some version =>
    match st.name with
    | none => .err (.deserialize (ch! "missing name"))
    | some name =>
      match st.appliedOn with
      | none => .err (.deserialize (ch! "missing applied_on"))
      | some applied =>
        match st.checksum with
        | none => .err (.deserialize (ch! "missing checksum"))
        | some sum =>
          match parseTime applied with
          | none => .err (.deserialize (ch! "failed to parse time"))
          | some t =>
            match parseUsize sum with
            | none => .err (.deserialize (ch! "failed to parse checksum"))
            | some n => .ok ⟨version, name, t, n⟩

/-- `impl Row for Migration`: `deserialize_row`, klickhouse/src/migrate.rs:23-107. -/
def migrationDe {θ : Type} (parseTime : Str → Option θ) (cells : List Cell) : Res (AppliedMigration θ) :=
  if cells.length ≠ 4 then .err (.deserialize (ch! "bad column count for migration"))
  else MigrationVars.loop {} cells >>= fun st => st.build parseTime

/-- `column_names`, klickhouse/src/migrate.rs:14-21. -/
def migrationColumns : List Str := [ch! "version", ch! "name", ch! "applied_on", ch! "checksum"]

end Klick
