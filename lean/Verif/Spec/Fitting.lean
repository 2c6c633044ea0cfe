import Verif.Spec.Convert
import Verif.Spec.Storage
/-
Words for C103: which Rust values a column of a type that goes with theirs takes, and which it keeps unchanged.
-/
namespace Klick.Spec
open Klick

/-- A text a column keeps: at most 2^30 bytes in a `String` column, at most `n` bytes and no NUL in a `FixedString(n)`. -/
def TextKept (T : Ty) (b : Bytes) : Prop :=
  (T = .string → b.length ≤ 2 ^ 30) ∧ ∀ n, T = .fixedString n → b.length ≤ n ∧ 0#8 ∉ b

/-- Times must be in the zone of the column; of the other scalars nothing is asked. -/
def InZone : (p : Prim) → Ty → p.den → Prop
  | .dateTime => fun T (x : Tz × BitVec 32) => ∀ tz, T = .dateTime tz → x.1 = tz
  | .dateTime64 _ => fun T (x : Tz × BitVec 64) => ∀ p tz, T = .dateTime64 p tz → x.1 = tz
  | _ => fun _ _ => True

mutual
/-- `Fitting cfg false t T x`: at every depth of the Rust value `x` times are in the zone of their column, and `None` is in a `Nullable`
column only. `Fitting cfg true t T x`: moreover no `None` is in a column of a geometric type, and texts have room. A `Value` must itself
be valid (and storable without change). -/
def Fitting (cfg : Cfg) (kept : Bool) : (t : RT) → Ty → t.den → Prop
  | .prim p => fun T x => InZone p T x
  | .string => fun T (s : Str) => kept = true → TextKept T (utf8Encode s)
  | .bytes => fun T (b : Bytes) => kept = true → TextKept T b
  | .value => fun T (v : Value) => T.innerValidate cfg v = true ∧ (kept = true → Storable cfg T v ∧ canon T v = v)
  | .vec t => fun T (xs : List t.den) => ∀ x ∈ xs, Fitting cfg kept t (elemTy T) x
  | .array t n => fun T (xs : { xs : List t.den // xs.length = n }) => ∀ x ∈ xs.1, Fitting cfg kept t (elemTy T) x
  | .option t => fun T (x : Option t.den) => match x with
    | none => ∃ S, T.stripLowCardinality = .nullable S ∧ (kept = true → isGeo S = false)
    | some y => Fitting cfg kept t (someTy T) y
  | .box t => fun T (x : t.den) => Fitting cfg kept t T x
  | .vecTuple t => fun T (xs : List t.den) => ∀ e ∈ xs.zip (memberTys T), Fitting cfg kept t e.2 e.1
  | .tuple ts => fun T (x : RT.dens ts) => FittingAll cfg kept ts (memberTys T) x
  | .map k v => fun T (es : List (k.den × v.den)) => ∀ K V, T = .map K V →
      ∀ e ∈ es, Fitting cfg kept k K.stripLowCardinality e.1 ∧ Fitting cfg kept v V.stripLowCardinality e.2
/-- Memberwise. -/
def FittingAll (cfg : Cfg) (kept : Bool) : (ts : List RT) → List Ty → RT.dens ts → Prop
  | [] => fun _ _ => True
  | t :: ts => fun Ts (x : t.den × RT.dens ts) => ∀ S Ss, Ts = S :: Ss →
      Fitting cfg kept t S.stripLowCardinality x.1 ∧ FittingAll cfg kept ts Ss x.2
end

/-- A struct with these fields in this order, each with its column name and Rust type, without further attributes: the value of the struct. -/
def StructVal : List (Str × RT) → Type
  | [] => Unit
  | f :: fs => f.2.den × StructVal fs

/-- The variables its derived reader uses. -/
def StructSlots : List (Str × RT) → Type
  | [] => Unit
  | f :: fs => FieldSlot f.2.den × StructSlots fs

/-- Its declaration, as the derive macro sees it. -/
def structOf : (fs : List (Str × RT)) → Fields (StructVal fs) (StructSlots fs)
  | [] => .nil
  | f :: fs => .cons ⟨f.1, f.1, false, false, none, .plain f.2.toSql f.2.fromSql true, none⟩ (structOf fs)

/-- Every field has a column of the table by its name, of a valid type that goes with its Rust type, and its value fits. -/
def FieldsFit (cfg : Cfg) (header : IMap Ty) : (fs : List (Str × RT)) → StructVal fs → Prop
  | [], _ => True
  | f :: fs, x => (∃ T, header.get f.1 = some T ∧ T.validate = true ∧ WellFormed cfg T ∧ Suits (!isLc T) f.2 T.stripLowCardinality ∧
      Faithful f.2 T.stripLowCardinality x.1 ∧ Fitting cfg true f.2 T.stripLowCardinality x.1) ∧ FieldsFit cfg header fs x.2

/-- The type inside `LowCardinality` and `Nullable`. -/
def bareTy : Ty → Ty
  | .lowCardinality t => bareTy t
  | .nullable t => bareTy t
  | t => t

end Klick.Spec
