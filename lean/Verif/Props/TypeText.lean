import Verif.TypeTextMain
import Verif.Props.Column
/-
C18-C22: type names, type validation, defaults.
-/
namespace Klick.Props
open Klick Klick.Spec

/-- A zone table with one zone, used by the examples. -/
def cfgZ : Cfg := ⟨true, true, fun s => s == tzUTC, fun _ => false, fun _ => false⟩
/-- The same in a release build. -/
def cfgZr : Cfg := ⟨false, true, fun s => s == tzUTC, fun _ => false, fun _ => false⟩

/-! ### C18 -/

/-- Rendering and parsing gives the type back, in any build, whenever its zones exist, its numbers
are machine numbers, BFloat16 is compiled in if used, and its enum names are plain. Missing from C18:
enum names containing a parenthesis, a comma, an equals sign or outer white space, for which it is
false (`C18_enum_name_fails`). -/
theorem C18_type_text_roundtrip_partial (cfg : Cfg) (t : Ty) (h : TextOk cfg t) :
    Ty.parse cfg t.display = .ok t := (rendered cfg t h).parse

/-- No two such types have the same text. -/
theorem C18_type_text_injective_partial (cfg : Cfg) (t u : Ty) (ht : TextOk cfg t) (hu : TextOk cfg u)
    (h : t.display = u.display) : t = u := by
  have h1 := C18_type_text_roundtrip_partial cfg t ht
  have h2 := C18_type_text_roundtrip_partial cfg u hu
  rw [h, h2] at h1
  cases h1; rfl

/-- C18 is false as stated: an enum with a comma, or an equals sign, in a name is legal in ClickHouse
and is not read back; one whose name has a blank at its edge silently changes; `=` inside a name too. -/
theorem C18_enum_name_fails :
    Ty.parse cfgZ (Ty.enum8 [(ch! "a,b", 1)]).display = .err .typeParse ∧
    Ty.parse cfgZ (Ty.enum8 [(ch! "a=b", 1)]).display = .err .typeParse ∧
    Ty.parse cfgZ (Ty.enum8 [(ch! "a(", 1)]).display = .err .typeParse ∧
    Ty.parse cfgZ (Ty.enum8 [(ch! " a", 1)]).display = .ok (.enum8 [(ch! "a", 1)]) :=
  ⟨rfl, rfl, rfl, rfl⟩

/-- A deep type meeting the hypothesis. -/
def exTextTy : Ty := .map (.lowCardinality (.nullable .string))
  (.array (.tuple [.dateTime64 3 tzUTC, .enum8 [(ch! "it's", 255), (ch! "b", 2)], .decimal64 4, .tuple []]))

example : TextOk cfgZ exTextTy := by
  refine ⟨trivial, ⟨by decide, rfl, ?_⟩, ?_, by show (4 : Nat) < 2 ^ 64; decide, trivial, trivial⟩
  · unfold Separator; decide
  · show ∀ it ∈ [(ch! "it's", (255 : BitVec 8)), (ch! "b", 2)], PlainName it.1
    simp only [List.mem_cons, List.not_mem_nil, or_false, forall_eq_or_imp, forall_eq]
    exact ⟨⟨rfl, by unfold Separator; decide⟩, ⟨rfl, by unfold Separator; decide⟩⟩
set_option maxRecDepth 4000 in
example : exTextTy.display = ch! "Map(LowCardinality(Nullable(String)),Array(Tuple(DateTime64(3,'UTC'),Enum8('it's' = -1,'b' = 2),Decimal64(4),Tuple())))" := rfl
set_option maxRecDepth 4000 in
example : Ty.parse cfgZ exTextTy.display = .ok exTextTy := rfl

/-! ### C19 -/

/-- In a release build, parsing a type name panics only if the text contains a single quote standing
alone as an argument or as an enum name. Missing from C19: texts with such a quote, on which it does
panic, and debug builds (see the next theorem). -/
theorem C19_parse_no_panic_release_partial (cfg : Cfg) (h : cfg.overflowChecks = false) (s : Str)
    (hq : ¬ LoneQuote s) : Ty.parse cfg s ≠ .panic :=
  fun hp => hq (parse_panic cfg s.length s (Nat.le_refl _) (.inl h) hp)

/-- In any build, parsing a text of the shape `name(arg, ...)` with matching parentheses and no lone
quote never panics. Missing from C19: texts with a stray closing parenthesis, on which a debug build
does panic. -/
theorem C19_parse_no_panic_shape_partial (cfg : Cfg) (s : Str) (h : CallShape s) (hq : ¬ LoneQuote s) :
    Ty.parse cfg s ≠ .panic :=
  fun hp => hq (parse_panic cfg s.length s (Nat.le_refl _) (.inr h) hp)

/-- C19 is false as stated: a stray closing parenthesis panics in a debug build, a lone quote panics
in every build. -/
theorem C19_parse_panics :
    Ty.parse cfgZ (ch! "Tuple(a)(b)") = .panic ∧
    Ty.parse cfgZr (ch! "DateTime(')") = .panic ∧ Ty.parse cfgZ (ch! "DateTime(')") = .panic ∧
    Ty.parse cfgZr (ch! "Enum8('=1)") = .panic ∧
    Ty.parse cfgZr (ch! "Array(DateTime64(3, '))") = .panic := ⟨rfl, rfl, rfl, rfl, rfl⟩

/-- The hypotheses cover malformed texts as well as every rendered type. -/
theorem C19_rendered_no_panic (cfg : Cfg) (t : Ty) (h : TextOk cfg t) : Ty.parse cfg t.display ≠ .panic := by
  rw [C18_type_text_roundtrip_partial cfg t h]; simp

example : CallShape (ch! "Array( Nope(3 ,x),)") ∧ ¬ LoneQuote (ch! "Array( Nope(3 ,x),)") := by
  refine ⟨?_, ?_⟩
  · refine CallShape.call (ch! "Array") [ch! " Nope(3 ,x)", []] [] (by unfold Separator; decide) ?_
      (by simp [Blank])
    simp only [List.mem_cons, List.not_mem_nil, or_false, forall_eq_or_imp, forall_eq]
    refine ⟨CallShape.call (ch! " Nope") [ch! "3 ", ch! "x"] [] (by unfold Separator; decide) ?_
      (by simp [Blank]), .leaf _ (by simp)⟩
    simp only [List.mem_cons, List.not_mem_nil, or_false, forall_eq_or_imp, forall_eq]
    exact ⟨.leaf _ (by unfold Separator; decide), .leaf _ (by unfold Separator; decide)⟩
  · rintro ⟨a, o, w, w', c, b, e, -⟩
    have : '\'' ∈ (ch! "Array( Nope(3 ,x),)") := by rw [e]; simp
    exact absurd this (by decide)
example : ¬ LoneQuote (ch! "Array(x))((") := by
  rintro ⟨a, o, w, w', c, b, e, -⟩
  have : '\'' ∈ (ch! "Array(x))((") := by rw [e]; simp
  exact absurd this (by decide)

/-! ### C20 -/

theorem parseUsize_dec_big (n : Nat) (h : 2 ^ 64 ≤ n) : parseUsize (dec n) = none := by
  rw [parseUsize_dec_ite, if_neg (by omega)]

theorem strip_parens (x : Str) : (('(' :: x ++ [')']).drop 1).dropLast = x := by simp

/-- The text `Decimal(P, S)` with any white space around the two numbers. -/
def decimalText (w1 w2 w3 w4 : Str) (p s : Nat) : Str :=
  (ch! "Decimal") ++ '(' :: (w1 ++ dec p ++ w2 ++ ',' :: (w3 ++ dec s ++ w4)) ++ [')']

theorem decimal_parse (cfg : Cfg) (w1 w2 w3 w4 : Str) (p s : Nat) (h1 : Blank w1) (h2 : Blank w2)
    (h3 : Blank w3) (h4 : Blank w4) :
    Ty.parse cfg (decimalText w1 w2 w3 w4 p s) =
      (parseNum (dec p) >>= fun p => parseNum (dec s) >>= fun s =>
        if p ≤ 9 then .ok (.decimal32 s) else if p ≤ 18 then .ok (.decimal64 s)
        else if p ≤ 38 then .ok (.decimal128 s) else if p ≤ 76 then .ok (.decimal256 s)
        else .err .typeParse) := by
  rw [parse_unfold]
  unfold parseStep decimalText
  have hid : eatIdent cfg ((ch! "Decimal") ++ '(' :: (w1 ++ dec p ++ w2 ++ ',' :: (w3 ++ dec s ++ w4)) ++ [')'])
      = (ch! "Decimal", '(' :: (w1 ++ dec p ++ w2 ++ ',' :: (w3 ++ dec s ++ w4)) ++ [')']) := rfl
  rw [hid]
  dsimp only
  rw [if_neg (by simp), Ends.trim (Ends.cons_append (by decide) (by decide)), if_neg (by simp)]
  have hargs : parseArgs cfg ('(' :: (w1 ++ dec p ++ w2 ++ ',' :: (w3 ++ dec s ++ w4)) ++ [')'])
      = .ok [dec p, dec s] := by
    unfold parseArgs
    rw [if_pos ⟨rfl, List.getLast?_concat⟩]
    have e : (('(' :: (w1 ++ dec p ++ w2 ++ ',' :: (w3 ++ dec s ++ w4)) ++ [')']).drop 1).dropLast
        = w1 ++ ((dec p ++ w2) ++ ',' :: (w3 ++ (dec s ++ w4))) := by
      rw [strip_parens]; simp
    rw [e]
    have et : trim (w1 ++ ((dec p ++ w2) ++ ',' :: (w3 ++ (dec s ++ w4))))
        = joinComma [dec p ++ w2, w3 ++ dec s] := by
      unfold trim
      rw [dropWhile_ws_append h1, dropWhile_ws_cons (by decide), trimEnd_cons (by decide)]
      obtain ⟨⟨c, r, hc, hw⟩, ⟨c', r', hc', hw'⟩⟩ := dec_ends s
      have : trimEnd (w3 ++ (dec s ++ w4)) = w3 ++ dec s := by
        rw [hc']
        have : w3 ++ (r' ++ [c'] ++ w4) = (w3 ++ r') ++ c' :: w4 := by simp
        rw [this, trimEnd_cons hw', trimEnd_blank h4]
        simp
      rw [this]
      obtain ⟨⟨c, r, hc, hw⟩, _⟩ := dec_ends p
      have : (dec p ++ w2).dropWhile isWs = dec p ++ w2 := by rw [hc]; simp [hw]
      rw [this]
      rfl
    rw [et, argLoop_join]
    · have : dropEmptyLast [dec p ++ w2, w3 ++ dec s] = [dec p ++ w2, w3 ++ dec s] := by
        simp [dropEmptyLast, dec_ne_nil]
      rw [this]
      simp only [List.map_cons, List.map_nil]
      rw [trim_append_blank (dec_ends p) h2, trim_blank_append (dec_ends s) h3]
    · simp only [List.mem_cons, List.not_mem_nil, or_false, forall_eq_or_imp, forall_eq]
      exact ⟨(dec_atom p).append (Atom.plain (Blank.plain h2)),
        (Atom.plain (Blank.plain h3)).append (dec_atom s)⟩
  rw [hargs]
  rfl

/-- `Decimal(P, S)`, with any white space around the numbers, selects 32, 64, 128 or 256 bits at
P ≤ 9, 18, 38, 76, keeps S as the scale, and is refused for larger P; numbers that do not fit a
machine word are refused. -/
theorem C20_decimal_width (cfg : Cfg) (w1 w2 w3 w4 : Str) (p s : Nat) (h1 : Blank w1) (h2 : Blank w2)
    (h3 : Blank w3) (h4 : Blank w4) :
    (s < 2 ^ 64 → p ≤ 9 → Ty.parse cfg (decimalText w1 w2 w3 w4 p s) = .ok (.decimal32 s)) ∧
    (s < 2 ^ 64 → 9 < p → p ≤ 18 → Ty.parse cfg (decimalText w1 w2 w3 w4 p s) = .ok (.decimal64 s)) ∧
    (s < 2 ^ 64 → 18 < p → p ≤ 38 → Ty.parse cfg (decimalText w1 w2 w3 w4 p s) = .ok (.decimal128 s)) ∧
    (s < 2 ^ 64 → 38 < p → p ≤ 76 → Ty.parse cfg (decimalText w1 w2 w3 w4 p s) = .ok (.decimal256 s)) ∧
    (76 < p ∨ 2 ^ 64 ≤ s → Ty.parse cfg (decimalText w1 w2 w3 w4 p s) = .err .typeParse) := by
  rw [decimal_parse cfg w1 w2 w3 w4 p s h1 h2 h3 h4]
  have hs : s < 2 ^ 64 → parseNum (dec s) = .ok s := parseNum_dec
  refine ⟨?_, ?_, ?_, ?_, ?_⟩
  · intro h hp
    rw [hs h, parseNum_dec (by omega), Res.bind_ok, Res.bind_ok, if_pos hp]
  · intro h hp hp'
    rw [hs h, parseNum_dec (by omega), Res.bind_ok, Res.bind_ok, if_neg (by omega), if_pos hp']
  · intro h hp hp'
    rw [hs h, parseNum_dec (by omega), Res.bind_ok, Res.bind_ok, if_neg (by omega), if_neg (by omega),
      if_pos hp']
  · intro h hp hp'
    rw [hs h, parseNum_dec (by omega), Res.bind_ok, Res.bind_ok, if_neg (by omega), if_neg (by omega),
      if_neg (by omega), if_pos hp']
  · intro h
    by_cases hp : p < 2 ^ 64
    · rw [parseNum_dec hp, Res.bind_ok]
      by_cases hs' : s < 2 ^ 64
      · rw [hs hs', Res.bind_ok, if_neg (by omega), if_neg (by omega), if_neg (by omega), if_neg (by omega)]
      · unfold parseNum
        rw [parseUsize_dec_big s (by omega)]
        rfl
    · unfold parseNum
      rw [parseUsize_dec_big p (by omega)]
      rfl

example : decimalText [] [] [' '] [] 18 4 = ch! "Decimal(18, 4)" := rfl
example : Blank [' ', '\t'] := by unfold Blank; decide

/-! ### C21 -/

theorem isInteger_iff (t : Ty) : IsInteger t → t.lcAllowed = true ∧ t.mapKeyAllowed = true ∧ t.validate = true := by
  intro h; cases h <;> exact ⟨rfl, rfl, rfl⟩

theorem lcInner_iff (t : Ty) : LcInner t ↔ t.lcAllowed = true := by
  constructor
  · intro h
    cases h with
    | integer h => exact (isInteger_iff _ h).1
    | _ => rfl
  · intro h
    cases t <;> first
      | (cases h; done) | exact .integer (by constructor) | exact .string | exact .fixedString
      | exact .date | exact .dateTime | exact .ipv4 | exact .ipv6

theorem mapKey_iff (t : Ty) : MapKey t ↔ t.mapKeyAllowed = true := by
  constructor
  · intro h
    cases h with
    | integer h => exact (isInteger_iff _ h).2.1
    | _ => rfl
  · intro h
    cases t <;> first
      | (cases h; done) | exact .integer (by constructor) | exact .string | exact .fixedString
      | exact .date | exact .dateTime | exact .dateTime64 | exact .lowCardinality | exact .uuid
      | exact .enum8 | exact .enum16

theorem composite_iff (t : Ty) : Composite t ↔ t.nullableRefused = true := by
  constructor
  · intro h; cases h <;> rfl
  · intro h
    cases t <;> first | (cases h; done) | (constructor; done)

theorem basic_validate (t : Ty) (h : Basic t) : t.validate = true := by
  cases h with
  | integer h => exact (isInteger_iff _ h).2.2
  | _ => rfl

theorem lcInner_validate (t : Ty) (h : LcInner t) : t.validate = true := by
  cases h with
  | integer h => exact (isInteger_iff _ h).2.2
  | _ => rfl

theorem validates_iff (ts : List Ty) : Ty.validates ts = true ↔ ∀ t ∈ ts, t.validate = true := by
  induction ts with
  | nil => simp [Ty.validates]
  | cons t ts ih => simp [Ty.validates, ih]

theorem stripNull_lcAllowed_nullable (t : Ty) : (Ty.nullable t).stripNull = t := rfl

theorem composable_validate {t : Ty} (h : Composable clientRanges t) : t.validate = true := by
  induction h with
  | basic h => exact basic_validate _ h
  | decimal32 h => obtain ⟨h1, h2⟩ := h; simp [Ty.validate]; omega
  | decimal64 h => obtain ⟨h1, h2⟩ := h; simp [Ty.validate]; omega
  | decimal128 h => obtain ⟨h1, h2⟩ := h; simp [Ty.validate]; omega
  | decimal256 h => obtain ⟨h1, h2⟩ := h; simp [Ty.validate]; omega
  | dateTime64 h => obtain ⟨h1, h2⟩ := h; simp [Ty.validate]; omega
  | array _ ih => simpa [Ty.validate] using ih
  | tuple _ ih => simp only [Ty.validate]; exact (validates_iff _).mpr ih
  | nullable hc _ ih =>
    rw [composite_iff] at hc
    simp [Ty.validate, ih, hc]
  | @lowCardinality u h =>
    have hv := lcInner_validate _ h
    have : Ty.stripNull u = u := by cases h with
      | integer h => cases h <;> rfl
      | _ => rfl
    simp only [Ty.validate, Bool.and_eq_true]
    rw [this]
    exact ⟨(lcInner_iff _).mp h, hv⟩
  | @lowCardinalityNullable u h =>
    have hv := lcInner_validate _ h
    simp only [Ty.validate, Bool.and_eq_true, stripNull_lcAllowed_nullable]
    refine ⟨(lcInner_iff _).mp h, ?_, hv⟩
    have : ¬ Composite u := by
      intro hc
      cases hc <;> cases h <;> rename_i h <;> cases h
    rw [composite_iff] at this
    simpa using this
  | map hk _ _ ih1 ih2 =>
    simp only [Ty.validate, Bool.and_eq_true]
    exact ⟨⟨(mapKey_iff _).mp hk, ih1⟩, ih2⟩

mutual
theorem validate_composable : ∀ t : Ty, t.validate = true → Composable clientRanges t
  | .int8, _ => .basic (.integer .int8) | .int16, _ => .basic (.integer .int16)
  | .int32, _ => .basic (.integer .int32) | .int64, _ => .basic (.integer .int64)
  | .int128, _ => .basic (.integer .int128) | .int256, _ => .basic (.integer .int256)
  | .uint8, _ => .basic (.integer .uint8) | .uint16, _ => .basic (.integer .uint16)
  | .uint32, _ => .basic (.integer .uint32) | .uint64, _ => .basic (.integer .uint64)
  | .uint128, _ => .basic (.integer .uint128) | .uint256, _ => .basic (.integer .uint256)
  | .float32, _ => .basic .float32 | .float64, _ => .basic .float64 | .bfloat16, _ => .basic .bfloat16
  | .string, _ => .basic .string | .fixedString _, _ => .basic .fixedString
  | .uuid, _ => .basic .uuid | .date, _ => .basic .date | .dateTime _, _ => .basic .dateTime
  | .ipv4, _ => .basic .ipv4 | .ipv6, _ => .basic .ipv6
  | .point, _ => .basic .point | .ring, _ => .basic .ring | .polygon, _ => .basic .polygon
  | .multiPolygon, _ => .basic .multiPolygon
  | .enum8 _, _ => .basic .enum8 | .enum16 _, _ => .basic .enum16
  | .decimal32 s, h => .decimal32 (by simp [Ty.validate] at h; exact ⟨by omega, by omega⟩)
  | .decimal64 s, h => .decimal64 (by simp [Ty.validate] at h; exact ⟨by omega, by omega⟩)
  | .decimal128 s, h => .decimal128 (by simp [Ty.validate] at h; exact ⟨by omega, by omega⟩)
  | .decimal256 s, h => .decimal256 (by simp [Ty.validate] at h; exact ⟨by omega, by omega⟩)
  | .dateTime64 p _, h => .dateTime64 (by simp [Ty.validate] at h; exact ⟨by omega, by omega⟩)
  | .array t, h => .array (validate_composable t (by simpa [Ty.validate] using h))
  | .tuple ts, h => .tuple (validates_composable ts (by simpa [Ty.validate] using h))
  | .nullable t, h => by
    simp only [Ty.validate, Bool.and_eq_true, Bool.not_eq_true'] at h
    exact .nullable (by rw [composite_iff]; simp [h.1]) (validate_composable t h.2)
  | .lowCardinality t, h => by
    simp only [Ty.validate, Bool.and_eq_true] at h
    have h1 := h.1
    cases t with
    | nullable t => exact .lowCardinalityNullable ((lcInner_iff t).mpr h1)
    | _ => exact .lowCardinality ((lcInner_iff _).mpr h1)
  | .map k v, h => by
    simp only [Ty.validate, Bool.and_eq_true] at h
    exact .map ((mapKey_iff k).mpr h.1.1) (validate_composable k h.1.2) (validate_composable v h.2)
theorem validates_composable : ∀ ts : List Ty, Ty.validates ts = true →
    ∀ t ∈ ts, Composable clientRanges t
  | [], _ => by simp
  | t :: ts, h => by
    simp only [Ty.validates, Bool.and_eq_true] at h
    intro u hu
    rw [List.mem_cons] at hu
    rcases hu with rfl | hu
    · exact validate_composable u h.1
    · exact validates_composable ts h.2 u hu
end

/-- Validation accepts exactly the composable types, at every depth, with the parameter ranges the
client uses. Missing from C21: these ranges are not ClickHouse's (`C21_ranges_fail`). -/
theorem C21_validate_iff_partial (t : Ty) : t.validate = true ↔ Composable clientRanges t :=
  ⟨validate_composable t, composable_validate⟩

theorem agreed_lc {t : Ty} (h : LcInner t) {r : Ranges} : Composable r t := by
  cases h with
  | integer h => exact .basic (.integer h)
  | string => exact .basic .string
  | fixedString => exact .basic .fixedString
  | date => exact .basic .date
  | dateTime => exact .basic .dateTime
  | ipv4 => exact .basic .ipv4
  | ipv6 => exact .basic .ipv6

theorem agreedRangess_iff (ts : List Ty) : AgreedRangess ts ↔ ∀ t ∈ ts, AgreedRanges t := by
  induction ts with
  | nil => simp [AgreedRangess]
  | cons t ts ih => simp [AgreedRangess, ih]

theorem composable_agree {t : Ty} (h : AgreedRanges t) :
    Composable clientRanges t ↔ Composable serverRanges t := by
  constructor
  · intro hc
    induction hc with
    | basic hb => exact .basic hb
    | decimal32 hr => exact .decimal32 hr.2
    | decimal64 hr => exact .decimal64 hr.2
    | decimal128 hr => exact .decimal128 hr.2
    | decimal256 hr => exact .decimal256 hr.2
    | dateTime64 hr => exact .dateTime64 h.2
    | array _ ih => exact .array (ih h)
    | tuple _ ih => exact .tuple (fun t ht => ih t ht ((agreedRangess_iff _).mp h t ht))
    | nullable hc _ ih => exact .nullable hc (ih h)
    | lowCardinality hb => exact .lowCardinality hb
    | lowCardinalityNullable hb => exact .lowCardinalityNullable hb
    | map hk _ _ ih1 ih2 => exact .map hk (ih1 h.1) (ih2 h.2)
  · intro hc
    induction hc with
    | basic hb => exact .basic hb
    | decimal32 hr => exact .decimal32 ⟨h, hr⟩
    | decimal64 hr => exact .decimal64 ⟨h, hr⟩
    | decimal128 hr => exact .decimal128 ⟨h, hr⟩
    | decimal256 hr => exact .decimal256 ⟨h, hr⟩
    | dateTime64 hr => exact .dateTime64 ⟨h.1, Nat.le_trans h.2 (by decide)⟩
    | array _ ih => exact .array (ih h)
    | tuple _ ih => exact .tuple (fun t ht => ih t ht ((agreedRangess_iff _).mp h t ht))
    | nullable hc _ ih => exact .nullable hc (ih h)
    | lowCardinality hb => exact .lowCardinality hb
    | lowCardinalityNullable hb => exact .lowCardinalityNullable hb
    | map hk _ _ ih1 ih2 => exact .map hk (ih1 h.1) (ih2 h.2)

/-- Validation accepts exactly ClickHouse's composable types as long as no decimal has scale 0 and
`DateTime64` precisions are between 1 and 9. -/
theorem C21_validate_server_partial (t : Ty) (h : AgreedRanges t) :
    t.validate = true ↔ Composable serverRanges t :=
  (C21_validate_iff_partial t).trans (composable_agree h)

/-- C21 is false as stated: `Decimal32(0)` and `DateTime64(0)` are legal in ClickHouse and refused,
`DateTime64(18)` is illegal and accepted. -/
theorem C21_ranges_fail :
    (Composable serverRanges (.decimal32 0) ∧ (Ty.decimal32 0).validate = false) ∧
    (Composable serverRanges (.dateTime64 0 tzUTC) ∧ (Ty.dateTime64 0 tzUTC).validate = false) ∧
    (¬ Composable serverRanges (.dateTime64 18 tzUTC) ∧ (Ty.dateTime64 18 tzUTC).validate = true) := by
  refine ⟨⟨.decimal32 (by show (0 : Nat) ≤ 9; decide), rfl⟩,
    ⟨.dateTime64 (by show (0 : Nat) ≤ 9; decide), rfl⟩, ?_, rfl⟩
  intro h
  cases h with
  | basic h => cases h; rename_i h; cases h
  | dateTime64 h => exact absurd h (by show ¬ (18 : Nat) ≤ 9; decide)

example : AgreedRanges exTextTy ∧ exTextTy.validate = true := by
  refine ⟨⟨trivial, ⟨by decide, by decide⟩, trivial, by show (1 : Nat) ≤ 4; decide, trivial, trivial⟩, rfl⟩
example : (Ty.array (.nullable (.array .int8))).validate = false := rfl
example : (Ty.map .float64 .int8).validate = false := rfl
example : (Ty.lowCardinality .uuid).validate = false := rfl

/-! ### C22 -/

mutual
theorem default_inner (cfg : Cfg) : ∀ t : Ty, HasDefault cfg t →
    ∃ v, t.defaultValue cfg = .ok v ∧ t.innerValidate cfg v = true
  | .int8, _ => ⟨_, rfl, rfl⟩ | .int16, _ => ⟨_, rfl, rfl⟩ | .int32, _ => ⟨_, rfl, rfl⟩
  | .int64, _ => ⟨_, rfl, rfl⟩ | .int128, _ => ⟨_, rfl, rfl⟩ | .int256, _ => ⟨_, rfl, rfl⟩
  | .uint8, _ => ⟨_, rfl, rfl⟩ | .uint16, _ => ⟨_, rfl, rfl⟩ | .uint32, _ => ⟨_, rfl, rfl⟩
  | .uint64, _ => ⟨_, rfl, rfl⟩ | .uint128, _ => ⟨_, rfl, rfl⟩ | .uint256, _ => ⟨_, rfl, rfl⟩
  | .float32, _ => ⟨_, rfl, rfl⟩ | .float64, _ => ⟨_, rfl, rfl⟩
  | .bfloat16, h => ⟨.bfloat16 0, by
      show (if cfg.bf16 = true then Res.ok (Value.bfloat16 0) else .panic) = _
      rw [if_pos (show cfg.bf16 = true from h)], h⟩
  | .decimal32 s, _ => ⟨.decimal32 s 0, rfl, by simp [Ty.innerValidate]⟩
  | .decimal64 s, _ => ⟨.decimal64 s 0, rfl, by simp [Ty.innerValidate]⟩
  | .decimal128 s, _ => ⟨.decimal128 s 0, rfl, by simp [Ty.innerValidate]⟩
  | .decimal256 s, _ => ⟨.decimal256 s 0, rfl, by simp [Ty.innerValidate]⟩
  | .string, _ => ⟨_, rfl, rfl⟩ | .fixedString _, _ => ⟨_, rfl, rfl⟩
  | .uuid, _ => ⟨_, rfl, rfl⟩ | .date, _ => ⟨_, rfl, rfl⟩
  | .dateTime tz, _ => ⟨.dateTime tz 0, rfl, by simp [Ty.innerValidate]⟩
  | .dateTime64 p tz, _ => ⟨.dateTime64 tz 0 p, rfl, by simp [Ty.innerValidate]⟩
  | .ipv4, _ => ⟨_, rfl, rfl⟩ | .ipv6, _ => ⟨_, rfl, rfl⟩
  | .point, _ => ⟨_, rfl, rfl⟩ | .ring, _ => ⟨_, rfl, rfl⟩ | .polygon, _ => ⟨_, rfl, rfl⟩
  | .multiPolygon, _ => ⟨_, rfl, rfl⟩
  | .enum8 items, h => ⟨.enum8 0, rfl, by
      obtain ⟨it, hi, h0⟩ := (h : ∃ it ∈ items, it.2 = 0)
      simp only [Ty.innerValidate, List.any_eq_true]
      exact ⟨it, hi, by simp [h0]⟩⟩
  | .enum16 items, h => ⟨.enum16 0, rfl, by
      obtain ⟨it, hi, h0⟩ := (h : ∃ it ∈ items, it.2 = 0)
      simp only [Ty.innerValidate, List.any_eq_true]
      exact ⟨it, hi, by simp [h0]⟩⟩
  | .lowCardinality t, h => by
    obtain ⟨v, h1, h2⟩ := default_inner cfg t h
    exact ⟨v, h1, h2⟩
  | .array _, _ => ⟨_, rfl, rfl⟩
  | .tuple ts, h => by
    obtain ⟨vs, h1, h2⟩ := defaults_inner cfg ts h
    exact ⟨.tuple vs, by simp [Ty.defaultValue, h1], h2⟩
  | .nullable _, _ => ⟨_, rfl, rfl⟩
  | .map _ _, _ => ⟨_, rfl, rfl⟩
theorem defaults_inner (cfg : Cfg) : ∀ ts : List Ty, HasDefaults cfg ts →
    ∃ vs, Ty.defaultValues cfg ts = .ok vs ∧ Ty.innerValidateZip cfg ts vs = true
  | [], _ => ⟨[], rfl, rfl⟩
  | t :: ts, h => by
    obtain ⟨v, h1, h2⟩ := default_inner cfg t h.1
    obtain ⟨vs, h3, h4⟩ := defaults_inner cfg ts h.2
    refine ⟨v :: vs, ?_, ?_⟩
    · simp [Ty.defaultValues, h1, h3]
    · simp [Ty.innerValidateZip, h2, h4]
end

/-- The default of a valid type exists and is a valid value of it, provided each enum it needs the
default of has a variant numbered 0 and BFloat16 is compiled in if needed. Missing from C22: enums
without a variant 0 (`C22_enum_default_fails`). -/
theorem C22_default_valid_partial (cfg : Cfg) (t : Ty) (hv : t.validate = true) (h : HasDefault cfg t) :
    ∃ v, t.defaultValue cfg = .ok v ∧ t.validateValue cfg v = true := by
  obtain ⟨v, h1, h2⟩ := default_inner cfg t h
  exact ⟨v, h1, by simp [Ty.validateValue, hv, h2]⟩

mutual
theorem default_zero (cfg : Cfg) : ∀ (t : Ty) (v : Value), t.defaultValue cfg = .ok v → ZeroOf t v
  | .tuple ts, v, h => by
    simp only [Ty.defaultValue] at h
    obtain ⟨vs, h1, h⟩ := (Res.bind_eq_ok ..).mp h
    cases h
    exact ⟨vs, rfl, defaults_zero cfg ts vs h1⟩
  | .lowCardinality t, v, h => default_zero cfg t v h
  | .bfloat16, v, h => by
    simp only [Ty.defaultValue] at h
    split at h
    · cases h; rfl
    · cases h
  | .int8, _, h => by cases h; rfl
  | .int16, _, h => by cases h; rfl
  | .int32, _, h => by cases h; rfl
  | .int64, _, h => by cases h; rfl
  | .int128, _, h => by cases h; rfl
  | .int256, _, h => by cases h; rfl
  | .uint8, _, h => by cases h; rfl
  | .uint16, _, h => by cases h; rfl
  | .uint32, _, h => by cases h; rfl
  | .uint64, _, h => by cases h; rfl
  | .uint128, _, h => by cases h; rfl
  | .uint256, _, h => by cases h; rfl
  | .float32, _, h => by cases h; rfl
  | .float64, _, h => by cases h; rfl
  | .decimal32 _, _, h => by cases h; rfl
  | .decimal64 _, _, h => by cases h; rfl
  | .decimal128 _, _, h => by cases h; rfl
  | .decimal256 _, _, h => by cases h; rfl
  | .string, _, h => by cases h; rfl
  | .fixedString _, _, h => by cases h; rfl
  | .uuid, _, h => by cases h; rfl
  | .date, _, h => by cases h; rfl
  | .dateTime _, _, h => by cases h; rfl
  | .dateTime64 _ _, _, h => by cases h; rfl
  | .ipv4, _, h => by cases h; rfl
  | .ipv6, _, h => by cases h; rfl
  | .point, _, h => by cases h; rfl
  | .ring, _, h => by cases h; rfl
  | .polygon, _, h => by cases h; rfl
  | .multiPolygon, _, h => by cases h; rfl
  | .enum8 _, _, h => by cases h; rfl
  | .enum16 _, _, h => by cases h; rfl
  | .array _, _, h => by cases h; rfl
  | .nullable _, _, h => by cases h; rfl
  | .map _ _, _, h => by cases h; rfl
theorem defaults_zero (cfg : Cfg) : ∀ (ts : List Ty) (vs : List Value), Ty.defaultValues cfg ts = .ok vs → ZerosOf ts vs
  | [], _, h => by cases h; rfl
  | t :: ts, vs, h => by
    simp only [Ty.defaultValues] at h
    obtain ⟨v, h1, h⟩ := (Res.bind_eq_ok ..).mp h
    obtain ⟨ws, h2, h⟩ := (Res.bind_eq_ok ..).mp h
    cases h
    exact ⟨v, ws, rfl, default_zero cfg t v h1, defaults_zero cfg ts ws h2⟩
end

/-- C22: the default is ClickHouse's: zero, the empty text, the empty list, NULL for `Nullable`, and member by member for tuples. -/
theorem C22_default_zero (cfg : Cfg) (t : Ty) (v : Value) (h : t.defaultValue cfg = .ok v) : ZeroOf t v := default_zero cfg t v h

/-- C22 is false as stated: an enum without a variant numbered 0 has the default 0, which is refused;
and with the feature off the default of BFloat16 panics. -/
theorem C22_enum_default_fails :
    ((Ty.enum8 [(ch! "a", 1)]).validate = true ∧
      (Ty.enum8 [(ch! "a", 1)]).defaultValue cfgZ = .ok (.enum8 0) ∧
      (Ty.enum8 [(ch! "a", 1)]).validateValue cfgZ (.enum8 0) = false) ∧
    Ty.bfloat16.defaultValue ⟨true, false, fun _ => false, fun _ => false, fun _ => false⟩ = .panic :=
  ⟨⟨rfl, rfl, rfl⟩, rfl⟩

example : HasDefault cfgZ (.tuple [.enum8 [(ch! "a", 1), (ch! "z", 0)], exTextTy, .bfloat16]) :=
  ⟨⟨(ch! "z", 0), by simp, rfl⟩, trivial, rfl, trivial⟩

end Klick.Props
