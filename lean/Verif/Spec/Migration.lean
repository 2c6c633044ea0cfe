import Verif.Migration
/-
What a row of the migrations table means.
-/
namespace Klick.Spec

/-- A text column: `String` or `FixedString(n)`. -/
def TextType (T : Ty) : Prop := T = .string ∨ ∃ n, T = .fixedString n

/-- The cells of one row, in whatever order, are exactly the version, name, time and checksum of the migration `m`: a 32-bit integer and three texts,
the time as `parseTime` reads it and the checksum as an unsigned decimal number. -/
def IsMigrationRow {θ : Type} (parseTime : Str → Option θ) (cells : List Cell) (m : AppliedMigration θ) : Prop :=
  ∃ (time sum : Str) (Tn Tt Ts : Ty), TextType Tn ∧ TextType Tt ∧ TextType Ts ∧
    cells.Perm [(ch! "version", .int32, .int32 m.version), (ch! "name", Tn, .string (utf8Encode m.name)),
      (ch! "applied_on", Tt, .string (utf8Encode time)), (ch! "checksum", Ts, .string (utf8Encode sum))] ∧
    parseTime time = some m.appliedOn ∧ parseUsize sum = some m.checksum

end Klick.Spec
