import Verif.Lock
/-
The statements `refinery` has a migrator run to read and keep its history: klickhouse/src/migrate.rs:155-175,232-261.
-/
namespace Klick

/-- `assert_migrations_table_query`, klickhouse/src/migrate.rs:165-175 (a client) and 245-261 (a cluster). The text is handed to `execute`. -/
def Migrator.tableText (m : Migrator) (table : Str) : Str :=
  match m.cluster with
  | none => ch! "CREATE TABLE IF NOT EXISTS " ++ table ++ ch! "(
            version INT,
            name VARCHAR(255),
            applied_on VARCHAR(255),
            checksum VARCHAR(255)) Engine=MergeTree() ORDER BY version;"
  | some _ => ch! "CREATE TABLE IF NOT EXISTS " ++ table ++ ch! "_local ON CLUSTER %CLUSTER%(
                version INT,
                name VARCHAR(255),
                applied_on VARCHAR(255),
                checksum VARCHAR(255)
            ) Engine=MergeTree() ORDER BY version;
            CREATE TABLE IF NOT EXISTS
                " ++ table ++ ch! "
            ON CLUSTER %CLUSTER%
            AS " ++ table ++ ch! "_local ENGINE = Distributed(%CLUSTER%, %DATABASE%, " ++ table ++ ch! "_local, rand());
            "

/-- The text of `AsyncQuery::query`, klickhouse/src/migrate.rs:155-163 (a client) and 232-243 (a cluster). -/
def Migrator.queryText (m : Migrator) (q : Str) : Str :=
  match m.cluster with
  | none => q
  | some (cluster, database) => replaceAll (ch! "%CLUSTER%") cluster (replaceAll (ch! "%DATABASE%") database q)

end Klick
