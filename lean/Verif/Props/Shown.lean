import Verif.Spec.Shown
import Verif.Props.Serde
import Verif.Props.Insert
/-
C109: what values have a text, and that the text of a time is the time.
-/
namespace Klick
open Spec Props

/-- The time arm has a text exactly for times in the calendar. -/
theorem time_shown (cfg : Cfg) (tz : Tz) (x : BitVec 64) (p : Nat) (hp : p < 20) :
    (InCalendar cfg p x → ∃ i, chronoFromSql cfg (.dateTime64 p tz) (.dateTime64 tz x p) = .ok (tz, i)) ∧
    (¬ InCalendar cfg p x → ∀ y, chronoFromSql cfg (.dateTime64 p tz) (.dateTime64 tz x p) ≠ .ok y) := by
  have e : chronoFromSql cfg (.dateTime64 p tz) (.dateTime64 tz x p) = (dt64ToInst cfg chronoErr p x.toNat >>= fun i => .ok (tz, i)) := rfl
  rw [e]
  by_cases h9 : p ≤ 9
  · obtain ⟨h1, h2⟩ := C48_dt64_read_outcome cfg chronoErr p x.toNat h9 x.isLt
    constructor
    · intro h
      obtain ⟨i, hi, _⟩ := C48_dt64_read cfg chronoErr p x.toNat h9 x.isLt h.1
      exact ⟨i, by rw [hi]; rfl⟩
    · intro h y hy
      have hgt : chronoMax < ((x.toNat / 10 ^ p : Nat) : Int) := by
        have : ¬ ((x.toNat / 10 ^ p : Nat) : Int) ≤ chronoMax := fun q => h ⟨q, fun _ => h9⟩
        omega
      by_cases h63 : x.toNat / 10 ^ p < 2 ^ 63
      · rw [h1.mpr ⟨hgt, h63⟩] at hy; cases hy
      · rw [h2.mpr (by omega)] at hy; cases hy
  · by_cases hc : cfg.overflowChecks = true
    · constructor
      · intro h; exact absurd (h.2 hc) h9
      · intro _ y hy
        rw [(C48_precision_above_nine cfg hc chronoErr p (by omega) (by omega)).1] at hy; cases hy
    · have hc' : cfg.overflowChecks = false := by simpa using hc
      have e := (C48_precision_release_false cfg hc' chronoErr p (by omega) hp).1 x.toNat x.isLt
      constructor
      · intro _; exact ⟨_, by rw [e]; rfl⟩
      · intro h
        exfalso
        refine h ⟨?_, fun q => absurd q hc⟩
        have h10 : 10 ^ 10 ≤ 10 ^ p := Nat.pow_le_pow_right (by decide) (by omega)
        have : x.toNat / 10 ^ p ≤ x.toNat / 10 ^ 10 := Nat.div_le_div_left h10 (by decide)
        have := x.isLt
        unfold chronoMax
        omega

theorem datetime_shown (x : BitVec 32) : ∃ i, dateTimeToInst x = .ok i := by
  obtain ⟨i, h, _⟩ := C48_datetime_back chronoErr x
  exact ⟨i, h⟩

theorem time_arm (cfg : Cfg) (lib : Rfc3339) (base : Ext) (tz : Tz) (x : BitVec 64) (p : Nat) :
    (timeExt cfg lib base).dateTime64 tz x p =
      shownOrNot (chronoFromSql cfg (.dateTime64 p tz) (.dateTime64 tz x p) >>= fun (z, i) => .ok (lib.text z i)) := rfl

mutual
/-- A text or a panic; a text when nothing in the value is in the way. -/
theorem shown_ok (cfg : Cfg) (lib : Rfc3339) (base : Ext) : ∀ v : Value, Precisions v →
    (∃ s, v.shown cfg lib base = .ok s) ∨ (v.shown cfg lib base = .panic ∧ ∃ w, PartOf w v ∧ Unshowable cfg w)
  | .array xs, hp => by
    rcases shown_all cfg lib base xs fun x hx tz y p h => hp tz y p (.array hx h) with ⟨ss, h⟩ | ⟨h, x, hx, w, hw, hu⟩
    · exact .inl ⟨_, by unfold Value.shown; rw [Value.text, h]; rfl⟩
    · exact .inr ⟨by unfold Value.shown; rw [Value.text, h]; rfl, w, .array hx hw, hu⟩
  | .tuple xs, hp => by
    rcases shown_all cfg lib base xs fun x hx tz y p h => hp tz y p (.tuple hx h) with ⟨ss, h⟩ | ⟨h, x, hx, w, hw, hu⟩
    · exact .inl ⟨_, by unfold Value.shown; rw [Value.text, h]; rfl⟩
    · exact .inr ⟨by unfold Value.shown; rw [Value.text, h]; rfl, w, .tuple hx hw, hu⟩
  | .map ks vs, hp => by
    unfold Value.shown
    rw [Value.text]
    by_cases hl : ks.length ≠ vs.length
    · rw [if_pos hl]
      exact .inr ⟨rfl, _, .self _, .map _ _ hl⟩
    · rw [if_neg hl]
      rcases shown_all cfg lib base ks fun x hx tz y p h => hp tz y p (.key hx h) with ⟨ss, h⟩ | ⟨h, x, hx, w, hw, hu⟩
      · rw [h]
        rcases shown_all cfg lib base vs fun x hx tz y p h => hp tz y p (.value hx h) with ⟨ts, h'⟩ | ⟨h', x, hx, w, hw, hu⟩
        · exact .inl ⟨_, by rw [Res.bind_ok, h']; rfl⟩
        · exact .inr ⟨by rw [Res.bind_ok, h']; rfl, w, .value hx hw, hu⟩
      · exact .inr ⟨by rw [h]; rfl, w, .key hx hw, hu⟩
  | .decimal256 p x, _ => .inr ⟨rfl, _, .self _, .decimal p x⟩
  | .dateTime tz x, _ => by
    obtain ⟨i, hi⟩ := datetime_shown x
    left
    unfold Value.shown
    rw [Value.text]
    rw [show (timeExt cfg lib base).dateTime tz x = shownOrNot (dateTimeToInst x >>= fun i => .ok (lib.text tz i)) from rfl, hi]
    exact ⟨_, rfl⟩
  | .dateTime64 tz x p, hp => by
    have h20 := hp tz x p (.self _)
    obtain ⟨h1, h2⟩ := time_shown cfg tz x p h20
    unfold Value.shown
    rw [Value.text]
    rw [time_arm]
    by_cases hc : InCalendar cfg p x
    · obtain ⟨i, hi⟩ := h1 hc
      rw [hi]
      exact .inl ⟨_, rfl⟩
    · right
      have := h2 hc
      cases hr : chronoFromSql cfg (.dateTime64 p tz) (.dateTime64 tz x p) with
      | ok y => exact absurd hr (this y)
      | err e => exact ⟨rfl, _, .self _, .time tz x p hc⟩
      | panic => exact ⟨rfl, _, .self _, .time tz x p hc⟩
  | .int8 _, _ => .inl ⟨_, rfl⟩ | .int16 _, _ => .inl ⟨_, rfl⟩ | .int32 _, _ => .inl ⟨_, rfl⟩ | .int64 _, _ => .inl ⟨_, rfl⟩
  | .int128 _, _ => .inl ⟨_, rfl⟩ | .int256 _, _ => .inl ⟨_, rfl⟩ | .uint8 _, _ => .inl ⟨_, rfl⟩ | .uint16 _, _ => .inl ⟨_, rfl⟩
  | .uint32 _, _ => .inl ⟨_, rfl⟩ | .uint64 _, _ => .inl ⟨_, rfl⟩ | .uint128 _, _ => .inl ⟨_, rfl⟩ | .uint256 _, _ => .inl ⟨_, rfl⟩
  | .float32 _, _ => .inl ⟨_, rfl⟩ | .float64 _, _ => .inl ⟨_, rfl⟩ | .bfloat16 _, _ => .inl ⟨_, rfl⟩ | .decimal32 _ _, _ => .inl ⟨_, rfl⟩
  | .decimal64 _ _, _ => .inl ⟨_, rfl⟩ | .decimal128 _ _, _ => .inl ⟨_, rfl⟩ | .string _, _ => .inl ⟨_, rfl⟩ | .uuid _, _ => .inl ⟨_, rfl⟩
  | .date _, _ => .inl ⟨_, rfl⟩ | .enum8 _, _ => .inl ⟨_, rfl⟩ | .enum16 _, _ => .inl ⟨_, rfl⟩ | .null, _ => .inl ⟨_, rfl⟩
  | .ipv4 _, _ => .inl ⟨_, rfl⟩ | .ipv6 _, _ => .inl ⟨_, rfl⟩ | .point _, _ => .inl ⟨_, rfl⟩ | .ring _, _ => .inl ⟨_, rfl⟩
  | .polygon _, _ => .inl ⟨_, rfl⟩ | .multiPolygon _, _ => .inl ⟨_, rfl⟩
/-- The items of a container. -/
theorem shown_all (cfg : Cfg) (lib : Rfc3339) (base : Ext) : ∀ vs : List Value, (∀ v ∈ vs, Precisions v) →
    (∃ ss, Value.texts (timeExt cfg lib base) vs = .ok ss) ∨
    (Value.texts (timeExt cfg lib base) vs = .panic ∧ ∃ v ∈ vs, ∃ w, PartOf w v ∧ Unshowable cfg w)
  | [], _ => .inl ⟨[], rfl⟩
  | v :: vs, hp => by
    rw [Value.texts]
    rcases shown_ok cfg lib base v (hp v (List.mem_cons_self ..)) with ⟨s, h⟩ | ⟨h, w, hw, hu⟩
    · unfold Value.shown at h
      rw [h, Res.bind_ok]
      rcases shown_all cfg lib base vs fun x hx => hp x (List.mem_cons_of_mem _ hx) with ⟨ss, h'⟩ | ⟨h', x, hx, w, hw, hu⟩
      · exact .inl ⟨_, by rw [h']; rfl⟩
      · exact .inr ⟨by rw [h']; rfl, x, List.mem_cons_of_mem _ hx, w, hw, hu⟩
    · unfold Value.shown at h
      exact .inr ⟨by rw [h]; rfl, v, List.mem_cons_self .., w, hw, hu⟩
end

theorem texts_panic {ext : Ext} {x : Value} (h : x.text ext = .panic) : ∀ {xs : List Value}, x ∈ xs → ∀ ss, Value.texts ext xs ≠ .ok ss
  | y :: ys, hx, ss => by
    rw [Value.texts]
    intro e
    obtain ⟨a, ha, e⟩ := (Res.bind_eq_ok ..).mp e
    obtain ⟨b, hb, _⟩ := (Res.bind_eq_ok ..).mp e
    rcases List.mem_cons.mp hx with rfl | hx
    · rw [h] at ha; cases ha
    · exact texts_panic h hx b hb

/-- Whatever has an unshowable part has no text. -/
theorem shown_panic (cfg : Cfg) (lib : Rfc3339) (base : Ext) {w v : Value} (h : PartOf w v) (hp : Precisions v) (hu : Unshowable cfg w) :
    v.shown cfg lib base = .panic := by
  induction h with
  | self =>
    cases hu with
    | decimal p x => rfl
    | time tz x p hc =>
      obtain ⟨_, h2⟩ := time_shown cfg tz x p (hp tz x p (.self _))
      have := h2 hc
      unfold Value.shown
      rw [Value.text]
      rw [time_arm]
      cases hr : chronoFromSql cfg (.dateTime64 p tz) (.dateTime64 tz x p) with
      | ok y => exact absurd hr (this y)
      | err e => rfl
      | panic => rfl
    | map ks vs hl => unfold Value.shown; rw [Value.text, if_pos hl]
  | @array x xs hx h ih =>
    have e := ih fun tz y p h => hp tz y p (.array hx h)
    rcases shown_ok cfg lib base (.array xs) hp with ⟨s, hs⟩ | ⟨hs, _⟩
    · unfold Value.shown at hs e
      rw [Value.text] at hs
      obtain ⟨ss, hss, _⟩ := (Res.bind_eq_ok ..).mp hs
      exact absurd hss (texts_panic e hx ss)
    · exact hs
  | @tuple x xs hx h ih =>
    have e := ih fun tz y p h => hp tz y p (.tuple hx h)
    rcases shown_ok cfg lib base (.tuple xs) hp with ⟨s, hs⟩ | ⟨hs, _⟩
    · unfold Value.shown at hs e
      rw [Value.text] at hs
      obtain ⟨ss, hss, _⟩ := (Res.bind_eq_ok ..).mp hs
      exact absurd hss (texts_panic e hx ss)
    · exact hs
  | @key x ks vs hx h ih =>
    have e := ih fun tz y p h => hp tz y p (.key hx h)
    rcases shown_ok cfg lib base (.map ks vs) hp with ⟨s, hs⟩ | ⟨hs, _⟩
    · unfold Value.shown at hs e
      rw [Value.text] at hs
      split at hs
      · cases hs
      · obtain ⟨ss, hss, _⟩ := (Res.bind_eq_ok ..).mp hs
        exact absurd hss (texts_panic e hx ss)
    · exact hs
  | @value x ks vs hx h ih =>
    have e := ih fun tz y p h => hp tz y p (.value hx h)
    rcases shown_ok cfg lib base (.map ks vs) hp with ⟨s, hs⟩ | ⟨hs, _⟩
    · unfold Value.shown at hs e
      rw [Value.text] at hs
      split at hs
      · cases hs
      · obtain ⟨ss, _, hs⟩ := (Res.bind_eq_ok ..).mp hs
        obtain ⟨ts, hts, _⟩ := (Res.bind_eq_ok ..).mp hs
        exact absurd hts (texts_panic e hx ts)
    · exact hs

/-- **C109** (what has a text). A value has a text exactly when no part of it is a 256-bit decimal, a time outside the calendar, or a map
with more keys than values or fewer; otherwise showing it panics. -/
theorem C109_exact_partial (cfg : Cfg) (lib : Rfc3339) (base : Ext) (v : Value) (hp : Precisions v) :
    ((∃ s, v.shown cfg lib base = .ok s) ↔ ∀ w, PartOf w v → ¬ Unshowable cfg w) ∧
    (v.shown cfg lib base = .panic ↔ ∃ w, PartOf w v ∧ Unshowable cfg w) := by
  have key : v.shown cfg lib base = .panic ↔ ∃ w, PartOf w v ∧ Unshowable cfg w := by
    constructor
    · intro h
      rcases shown_ok cfg lib base v hp with ⟨s, hs⟩ | ⟨_, h'⟩
      · rw [hs] at h; cases h
      · exact h'
    · rintro ⟨w, hw, hu⟩
      exact shown_panic cfg lib base hw hp hu
  refine ⟨⟨?_, ?_⟩, key⟩
  · rintro ⟨s, hs⟩ w hw hu
    rw [key.mpr ⟨w, hw, hu⟩] at hs
    cases hs
  · intro h
    rcases shown_ok cfg lib base v hp with hs | ⟨_, w, hw, hu⟩
    · exact hs
    · exact absurd hu (h w hw)

theorem args_outcome (ext : Ext) (args : List Value) (ht : ∀ v ∈ args, v.text ext = .panic ∨ ∃ s, v.text ext = .ok s) :
    ∀ (ts : List Token) (out : Str),
      (argsLoop ext args out ts = .panic ↔ ∃ i v, MentionsArgument ts (i + 1) ∧ args[i]? = some v ∧ v.text ext = .panic) ∧
      ((∃ s, argsLoop ext args out ts = .ok s) ∨ argsLoop ext args out ts = .panic)
  | [], out => by
    refine ⟨⟨fun h => (by cases h), ?_⟩, .inl ⟨out, rfl⟩⟩
    rintro ⟨_, _, ⟨_, h, _⟩, _⟩
    exact absurd h List.not_mem_nil
  | t :: ts, out => by
    have skip : ∀ out', (∀ ds i v, t = .clientArgument ds → parseUsize ds = some (i + 1) → args[i]? = some v → v.text ext ≠ .panic) →
        ((argsLoop ext args out' ts = .panic ↔ ∃ i v, MentionsArgument (t :: ts) (i + 1) ∧ args[i]? = some v ∧ v.text ext = .panic) ∧
        ((∃ s, argsLoop ext args out' ts = .ok s) ∨ argsLoop ext args out' ts = .panic)) := by
      intro out' hno
      obtain ⟨h1, h2⟩ := args_outcome ext args ht ts out'
      refine ⟨h1.trans ⟨?_, ?_⟩, h2⟩
      · rintro ⟨i, v, ⟨ds, hd, hi⟩, h⟩
        exact ⟨i, v, ⟨ds, List.mem_cons_of_mem _ hd, hi⟩, h⟩
      · rintro ⟨i, v, ⟨ds, hd, hi⟩, ha, hv⟩
        rcases List.mem_cons.mp hd with e | hd
        · exact absurd hv (hno ds i v e.symm hi ha)
        · exact ⟨i, v, ⟨ds, hd, hi⟩, ha, hv⟩
    cases t with
    | escapedDollar => rw [argsLoop]; exact skip _ fun _ _ _ e => by cases e
    | semicolon => rw [argsLoop]; exact skip _ fun _ _ _ e => by cases e
                   all_goals (intros; simp_all)
    | other s => rw [argsLoop]; exact skip _ fun _ _ _ e => by cases e
                 all_goals (intros; simp_all)
    | clientArgument ds =>
      rw [argsLoop]
      cases hi : parseUsize ds with
      | none => exact skip _ fun ds' i v e h => by cases e; rw [hi] at h; cases h
      | some i =>
        dsimp only
        by_cases hr : i ≤ args.length ∧ i > 0
        · rw [if_pos hr]
          have hlt : i - 1 < args.length := by omega
          rw [List.getElem?_eq_getElem hlt]
          dsimp only
          rcases ht args[i - 1] (List.getElem_mem hlt) with hv | ⟨s, hv⟩
          · rw [hv]
            refine ⟨⟨fun _ => ⟨i - 1, args[i - 1], ⟨ds, List.mem_cons_self .., ?_⟩, List.getElem?_eq_getElem hlt, hv⟩, fun _ => rfl⟩, .inr rfl⟩
            rw [hi]; congr 1; omega
          · rw [hv, Res.bind_ok]
            refine skip _ fun ds' j v e h ha => ?_
            cases e
            rw [hi] at h
            have : j = i - 1 := by have := Option.some.inj h; omega
            subst this
            rw [List.getElem?_eq_getElem hlt] at ha
            rw [← Option.some.inj ha, hv]
            intro q; cases q
        · rw [if_neg hr]
          refine skip _ fun ds' j v e h ha => ?_
          cases e
          rw [hi] at h
          have hj := Option.some.inj h
          have := (List.getElem?_eq_some_iff.mp ha).1
          omega

/-- **C109** for query arguments: rendering a template gives a text unless it mentions an argument that has none; then it panics. -/
theorem C109_arguments (cfg : Cfg) (lib : Rfc3339) (base : Ext) (template : List Token) (args : List Value) (hp : ∀ v ∈ args, Precisions v) :
    (queryWithArguments cfg lib base template args = .panic ↔
      ∃ i v, MentionsArgument template (i + 1) ∧ args[i]? = some v ∧ ∃ w, PartOf w v ∧ Unshowable cfg w) ∧
    ((∃ s, queryWithArguments cfg lib base template args = .ok s) ∨ queryWithArguments cfg lib base template args = .panic) := by
  have ht : ∀ v ∈ args, v.text (timeExt cfg lib base) = .panic ∨ ∃ s, v.text (timeExt cfg lib base) = .ok s := by
    intro v hv
    rcases shown_ok cfg lib base v (hp v hv) with h | ⟨h, _⟩
    · exact .inr h
    · exact .inl h
  obtain ⟨h1, h2⟩ := args_outcome (timeExt cfg lib base) args ht template []
  refine ⟨h1.trans ⟨?_, ?_⟩, h2⟩
  · rintro ⟨i, v, hm, ha, hv⟩
    exact ⟨i, v, hm, ha, (C109_exact_partial cfg lib base v (hp v (List.mem_of_getElem? ha))).2.mp hv⟩
  · rintro ⟨i, v, hm, ha, hv⟩
    exact ⟨i, v, hm, ha, (C109_exact_partial cfg lib base v (hp v (List.mem_of_getElem? ha))).2.mpr hv⟩

/-! ### values of columns -/

theorem storable_base (cfg : Cfg) : ∀ (T : Ty) (v : Value), Storable cfg T v →
    v = .null ∨ ∃ S, TypePart S T ∧ Storable cfg S v ∧ (∀ t, S ≠ .lowCardinality t) ∧ ∀ t, S ≠ .nullable t
  | .lowCardinality t, v, h => by
    simp only [Storable] at h
    rcases storable_base cfg t v h with h | ⟨S, h1, h2⟩
    · exact .inl h
    · exact .inr ⟨S, .lowCardinality h1, h2⟩
  | .nullable t, v, h => by
    simp only [Storable] at h
    rcases h with h | h
    · exact .inl h.1
    · rcases storable_base cfg t v h with h | ⟨S, h1, h2⟩
      · exact .inl h
      · exact .inr ⟨S, .nullable h1, h2⟩
  | .int8, v, h | .int16, v, h | .int32, v, h | .int64, v, h | .int128, v, h | .int256, v, h | .uint8, v, h | .uint16, v, h | .uint32, v, h
  | .uint64, v, h | .uint128, v, h | .uint256, v, h | .float32, v, h | .float64, v, h | .bfloat16, v, h | .decimal32 _, v, h
  | .decimal64 _, v, h | .decimal128 _, v, h | .decimal256 _, v, h | .string, v, h | .fixedString _, v, h | .uuid, v, h | .date, v, h
  | .dateTime _, v, h | .dateTime64 _ _, v, h | .ipv4, v, h | .ipv6, v, h | .point, v, h | .ring, v, h | .polygon, v, h
  | .multiPolygon, v, h | .enum8 _, v, h | .enum16 _, v, h | .array _, v, h | .tuple _, v, h | .map _ _, v, h =>
    .inr ⟨_, .self _, h, fun _ q => (by cases q), fun _ q => (by cases q)⟩

theorem typePart_trans {a b c : Ty} (h1 : TypePart a b) (h2 : TypePart b c) : TypePart a c := by
  induction h2 with
  | self => exact h1
  | lowCardinality _ ih => exact .lowCardinality ih
  | nullable _ ih => exact .nullable ih
  | array _ ih => exact .array ih
  | tuple ht _ ih => exact .tuple ht ih
  | key _ ih => exact .key ih
  | value _ ih => exact .value ih

theorem storableAll_mem {cfg : Cfg} : ∀ {ts : List Ty} {xs : List Value}, StorableAll cfg ts xs → ∀ x ∈ xs, ∃ t ∈ ts, Storable cfg t x
  | [], xs, h, x, hx => by
    simp only [StorableAll] at h
    subst h; cases hx
  | t :: ts, xs, h, x, hx => by
    simp only [StorableAll] at h
    obtain ⟨y, ys, rfl, h1, h2⟩ := h
    rcases List.mem_cons.mp hx with rfl | hx
    · exact ⟨t, List.mem_cons_self .., h1⟩
    · obtain ⟨s, hs, h3⟩ := storableAll_mem h2 x hx
      exact ⟨s, List.mem_cons_of_mem _ hs, h3⟩

/-- Every part of a value of a column is NULL, a byte, or a value for a part of the column's type. -/
theorem storable_parts (cfg : Cfg) {w v : Value} (h : PartOf w v) : ∀ T, Storable cfg T v →
    w = .null ∨ ByteValue w ∨ ∃ S, TypePart S T ∧ Storable cfg S w ∧ (∀ t, S ≠ .lowCardinality t) ∧ ∀ t, S ≠ .nullable t := by
  have byte : ∀ {w x : Value}, PartOf w x → ByteValue x → ByteValue w := by
    intro w x h hb
    rcases hb with ⟨y, rfl⟩ | ⟨y, rfl⟩
    · cases h; exact .inl ⟨y, rfl⟩
    · cases h; exact .inr ⟨y, rfl⟩
  induction h with
  | self =>
    intro T hT
    rcases storable_base cfg T _ hT with h | h
    · exact .inl h
    · exact .inr (.inr h)
  | @array x xs hx h ih =>
    intro T hT
    rcases storable_base cfg T _ hT with h' | ⟨S, hS, h1, h2, h3⟩
    · cases h'
    · cases S with
      | array t =>
        simp only [Storable] at h1
        obtain ⟨ys, e, h1⟩ := h1
        cases e
        rcases ih t (h1 x hx) with h | h | ⟨R, h4, h5⟩
        · exact .inl h
        · exact .inr (.inl h)
        · exact .inr (.inr ⟨R, typePart_trans h4 (typePart_trans (.array (.self _)) hS), h5⟩)
      | string =>
        simp only [Storable] at h1
        rcases h1 with ⟨b, e, _⟩ | ⟨ys, e, _, h1⟩
        · cases e
        · cases e; exact .inr (.inl (byte h (h1 x hx)))
      | fixedString n =>
        simp only [Storable] at h1
        rcases h1 with ⟨b, e⟩ | ⟨ys, e, h1⟩
        · cases e
        · cases e; exact .inr (.inl (byte h (h1 x hx)))
      | lowCardinality t => exact absurd rfl (h2 t)
      | nullable t => exact absurd rfl (h3 t)
      | tuple ts => simp only [Storable] at h1; obtain ⟨_, e, _⟩ := h1; cases e
      | map k t => simp only [Storable] at h1; obtain ⟨_, _, e, _⟩ := h1; cases e
      | int8 => simp only [Storable] at h1; rcases h1 with ⟨_, e⟩ | ⟨_, e⟩ <;> cases e
      | _ => simp only [Storable] at h1; obtain ⟨_, e⟩ := h1; cases e
  | @tuple x xs hx h ih =>
    intro T hT
    rcases storable_base cfg T _ hT with h' | ⟨S, hS, h1, h2, h3⟩
    · cases h'
    · cases S with
      | tuple ts =>
        simp only [Storable] at h1
        obtain ⟨ys, e, h1⟩ := h1
        cases e
        obtain ⟨t, ht, h1⟩ := storableAll_mem h1 x hx
        rcases ih t h1 with h | h | ⟨R, h4, h5⟩
        · exact .inl h
        · exact .inr (.inl h)
        · exact .inr (.inr ⟨R, typePart_trans h4 (typePart_trans (.tuple ht (.self _)) hS), h5⟩)
      | string => simp only [Storable] at h1; rcases h1 with ⟨b, e, _⟩ | ⟨ys, e, _⟩ <;> cases e
      | fixedString n => simp only [Storable] at h1; rcases h1 with ⟨b, e⟩ | ⟨ys, e, _⟩ <;> cases e
      | lowCardinality t => exact absurd rfl (h2 t)
      | nullable t => exact absurd rfl (h3 t)
      | array t => simp only [Storable] at h1; obtain ⟨_, e, _⟩ := h1; cases e
      | map k t => simp only [Storable] at h1; obtain ⟨_, _, e, _⟩ := h1; cases e
      | int8 => simp only [Storable] at h1; rcases h1 with ⟨_, e⟩ | ⟨_, e⟩ <;> cases e
      | _ => simp only [Storable] at h1; obtain ⟨_, e⟩ := h1; cases e
  | @key x ks vs hx h ih =>
    intro T hT
    rcases storable_base cfg T _ hT with h' | ⟨S, hS, h1, h2, h3⟩
    · cases h'
    · cases S with
      | map k t =>
        simp only [Storable] at h1
        obtain ⟨_, _, e, _, h1, _⟩ := h1
        cases e
        rcases ih k (h1 x hx) with h | h | ⟨R, h4, h5⟩
        · exact .inl h
        · exact .inr (.inl h)
        · exact .inr (.inr ⟨R, typePart_trans h4 (typePart_trans (.key (.self _)) hS), h5⟩)
      | string => simp only [Storable] at h1; rcases h1 with ⟨b, e, _⟩ | ⟨ys, e, _⟩ <;> cases e
      | fixedString n => simp only [Storable] at h1; rcases h1 with ⟨b, e⟩ | ⟨ys, e, _⟩ <;> cases e
      | lowCardinality t => exact absurd rfl (h2 t)
      | nullable t => exact absurd rfl (h3 t)
      | array t => simp only [Storable] at h1; obtain ⟨_, e, _⟩ := h1; cases e
      | tuple ts => simp only [Storable] at h1; obtain ⟨_, e, _⟩ := h1; cases e
      | int8 => simp only [Storable] at h1; rcases h1 with ⟨_, e⟩ | ⟨_, e⟩ <;> cases e
      | _ => simp only [Storable] at h1; obtain ⟨_, e⟩ := h1; cases e
  | @value x ks vs hx h ih =>
    intro T hT
    rcases storable_base cfg T _ hT with h' | ⟨S, hS, h1, h2, h3⟩
    · cases h'
    · cases S with
      | map k t =>
        simp only [Storable] at h1
        obtain ⟨_, _, e, _, _, h1⟩ := h1
        cases e
        rcases ih t (h1 x hx) with h | h | ⟨R, h4, h5⟩
        · exact .inl h
        · exact .inr (.inl h)
        · exact .inr (.inr ⟨R, typePart_trans h4 (typePart_trans (.value (.self _)) hS), h5⟩)
      | string => simp only [Storable] at h1; rcases h1 with ⟨b, e, _⟩ | ⟨ys, e, _⟩ <;> cases e
      | fixedString n => simp only [Storable] at h1; rcases h1 with ⟨b, e⟩ | ⟨ys, e, _⟩ <;> cases e
      | lowCardinality t => exact absurd rfl (h2 t)
      | nullable t => exact absurd rfl (h3 t)
      | array t => simp only [Storable] at h1; obtain ⟨_, e, _⟩ := h1; cases e
      | tuple ts => simp only [Storable] at h1; obtain ⟨_, e, _⟩ := h1; cases e
      | int8 => simp only [Storable] at h1; rcases h1 with ⟨_, e⟩ | ⟨_, e⟩ <;> cases e
      | _ => simp only [Storable] at h1; obtain ⟨_, e⟩ := h1; cases e

theorem storable_decimal256 {cfg : Cfg} {S : Ty} {q : Nat} {x : BitVec 256} (h : Storable cfg S (.decimal256 q x)) (h2 : ∀ t, S ≠ .lowCardinality t)
    (h3 : ∀ t, S ≠ .nullable t) : S = .decimal256 q := by
  cases S with
  | decimal256 s => simp only [Storable] at h; obtain ⟨_, e⟩ := h; cases e; rfl
  | string => simp only [Storable] at h; rcases h with ⟨b, e, _⟩ | ⟨ys, e, _⟩ <;> cases e
  | fixedString n => simp only [Storable] at h; rcases h with ⟨b, e⟩ | ⟨ys, e, _⟩ <;> cases e
  | lowCardinality t => exact absurd rfl (h2 t)
  | nullable t => exact absurd rfl (h3 t)
  | array t => simp only [Storable] at h; obtain ⟨_, e, _⟩ := h; cases e
  | tuple ts => simp only [Storable] at h; obtain ⟨_, e, _⟩ := h; cases e
  | map k t => simp only [Storable] at h; obtain ⟨_, _, e, _⟩ := h; cases e
  | int8 => simp only [Storable] at h; rcases h with ⟨_, e⟩ | ⟨_, e⟩ <;> cases e
  | _ => simp only [Storable] at h; obtain ⟨_, e⟩ := h; cases e

theorem storable_time {cfg : Cfg} {S : Ty} {tz : Tz} {x : BitVec 64} {p : Nat} (h : Storable cfg S (.dateTime64 tz x p)) (h2 : ∀ t, S ≠ .lowCardinality t)
    (h3 : ∀ t, S ≠ .nullable t) : S = .dateTime64 p tz := by
  cases S with
  | dateTime64 s z => simp only [Storable] at h; obtain ⟨_, e⟩ := h; cases e; rfl
  | string => simp only [Storable] at h; rcases h with ⟨b, e, _⟩ | ⟨ys, e, _⟩ <;> cases e
  | fixedString n => simp only [Storable] at h; rcases h with ⟨b, e⟩ | ⟨ys, e, _⟩ <;> cases e
  | lowCardinality t => exact absurd rfl (h2 t)
  | nullable t => exact absurd rfl (h3 t)
  | array t => simp only [Storable] at h; obtain ⟨_, e, _⟩ := h; cases e
  | tuple ts => simp only [Storable] at h; obtain ⟨_, e, _⟩ := h; cases e
  | map k t => simp only [Storable] at h; obtain ⟨_, _, e, _⟩ := h; cases e
  | int8 => simp only [Storable] at h; rcases h with ⟨_, e⟩ | ⟨_, e⟩ <;> cases e
  | _ => simp only [Storable] at h; obtain ⟨_, e⟩ := h; cases e

theorem storable_map {cfg : Cfg} {S : Ty} {ks vs : List Value} (h : Storable cfg S (.map ks vs)) (h2 : ∀ t, S ≠ .lowCardinality t)
    (h3 : ∀ t, S ≠ .nullable t) : ks.length = vs.length := by
  cases S with
  | map k t => simp only [Storable] at h; obtain ⟨_, _, e, h, _⟩ := h; cases e; exact h
  | string => simp only [Storable] at h; rcases h with ⟨b, e, _⟩ | ⟨ys, e, _⟩ <;> cases e
  | fixedString n => simp only [Storable] at h; rcases h with ⟨b, e⟩ | ⟨ys, e, _⟩ <;> cases e
  | lowCardinality t => exact absurd rfl (h2 t)
  | nullable t => exact absurd rfl (h3 t)
  | array t => simp only [Storable] at h; obtain ⟨_, e, _⟩ := h; cases e
  | tuple ts => simp only [Storable] at h; obtain ⟨_, e, _⟩ := h; cases e
  | int8 => simp only [Storable] at h; rcases h with ⟨_, e⟩ | ⟨_, e⟩ <;> cases e
  | _ => simp only [Storable] at h; obtain ⟨_, e⟩ := h; cases e

/-- **C109** for the values a column can hold (C06), nested without bound: when its type has neither 256-bit decimals nor times of more than
nine digits, a value has a text exactly when its `DateTime64` times are in the calendar; when it has no `DateTime64` either, always. -/
theorem C109_column_partial (cfg : Cfg) (lib : Rfc3339) (base : Ext) (T : Ty) (v : Value) (h : Storable cfg T v)
    (hd : ∀ p, ¬ TypePart (.decimal256 p) T) (hp : ∀ p tz, TypePart (.dateTime64 p tz) T → p ≤ 9) :
    ((∃ s, v.shown cfg lib base = .ok s) ↔ ∀ tz x p, PartOf (.dateTime64 tz x p) v → ((x.toNat / 10 ^ p : Nat) : Int) ≤ chronoMax) ∧
    ((∀ p tz, ¬ TypePart (.dateTime64 p tz) T) → ∃ s, v.shown cfg lib base = .ok s) := by
  have times : ∀ tz x p, PartOf (.dateTime64 tz x p) v → TypePart (.dateTime64 p tz) T := by
    intro tz x p hw
    rcases storable_parts cfg hw T h with e | (⟨_, e⟩ | ⟨_, e⟩) | ⟨S, h1, h2, h3, h4⟩
    · cases e
    · cases e
    · cases e
    · rw [← storable_time h2 h3 h4]; exact h1
  have hprec : Precisions v := fun tz x p hw => by
    have := hp p tz (times tz x p hw)
    omega
  have main : (∃ s, v.shown cfg lib base = .ok s) ↔ ∀ tz x p, PartOf (.dateTime64 tz x p) v → ((x.toNat / 10 ^ p : Nat) : Int) ≤ chronoMax := by
    rw [(C109_exact_partial cfg lib base v hprec).1]
    constructor
    · intro hn tz x p hw
      refine Decidable.by_contra fun hc => hn _ hw (.time tz x p fun hi => hc hi.1)
    · intro hn w hw hu
      cases hu with
      | decimal p x =>
        rcases storable_parts cfg hw T h with e | (⟨_, e⟩ | ⟨_, e⟩) | ⟨S, h1, h2, h3, h4⟩
        · cases e
        · cases e
        · cases e
        · exact hd p (by rw [← storable_decimal256 h2 h3 h4]; exact h1)
      | time tz x p hc => exact hc ⟨hn tz x p hw, fun _ => hp p tz (times tz x p hw)⟩
      | map ks vs hl =>
        rcases storable_parts cfg hw T h with e | (⟨_, e⟩ | ⟨_, e⟩) | ⟨S, h1, h2, h3, h4⟩
        · cases e
        · cases e
        · cases e
        · exact hl (storable_map h2 h3 h4)
  exact ⟨main, fun hn => main.mpr fun tz x p hw => absurd (times tz x p hw) (hn p tz)⟩

/-! ### the times -/

/-- **C109**: the text of a `DateTime` is a call with a text that stands for the same instant, in zones that are whole minutes from UTC. -/
theorem C109_datetime_partial (cfg : Cfg) (lib : Rfc3339) (hl : Rfc3339.Keeps lib) (base : Ext) (tz : Tz) (x : BitVec 32) (hw : WholeMinutes lib tz x.toNat) :
    ∃ s, (Value.dateTime tz x).shown cfg lib base = .ok (timeCall s) ∧ lib.read s = .ok ⟨x.toNat, 0⟩ := by
  have hx := x.isLt
  have hi : dateTimeToInst x = .ok ⟨x.toNat, 0⟩ := by
    simp only [dateTimeToInst, timestampOpt]
    rw [if_pos (by simp only [chronoMin, chronoMax]; omega)]
    rfl
  refine ⟨lib.text tz ⟨x.toNat, 0⟩, ?_, ?_⟩
  · unfold Value.shown
    rw [Value.text, show (timeExt cfg lib base).dateTime tz x = shownOrNot (dateTimeToInst x >>= fun i => .ok (lib.text tz i)) from rfl, hi]
    rfl
  · exact read_text_whole hl tz _ (Int.natCast_nonneg _) (by unfold lastSecond; simp only; omega) (Nat.zero_lt_succ _) hw

/-- **C109** in every zone: the text of a `DateTime` stands for an instant at most half a minute away. -/
theorem C109_datetime_drift (cfg : Cfg) (lib : Rfc3339) (hl : Rfc3339.Keeps lib) (base : Ext) (tz : Tz) (x : BitVec 32) :
    ∃ s i, (Value.dateTime tz x).shown cfg lib base = .ok (timeCall s) ∧ lib.read s = .ok i ∧ i.nanos = 0 ∧
      i.secs - x.toNat ≤ 30 ∧ x.toNat - i.secs ≤ 30 := by
  have hx := x.isLt
  have hi : dateTimeToInst x = .ok ⟨x.toNat, 0⟩ := by
    simp only [dateTimeToInst, timestampOpt]
    rw [if_pos (by simp only [chronoMin, chronoMax]; omega)]
    rfl
  refine ⟨lib.text tz ⟨x.toNat, 0⟩, _, ?_, read_text hl tz ⟨x.toNat, 0⟩ (Int.natCast_nonneg _) (by unfold lastSecond; simp only; omega) (Nat.zero_lt_succ _),
    rfl, ?_, ?_⟩
  · unfold Value.shown
    rw [Value.text, show (timeExt cfg lib base).dateTime tz x = shownOrNot (dateTimeToInst x >>= fun i => .ok (lib.text tz i)) from rfl, hi]
    rfl
  · simp only [roundMinutes]; split <;> omega
  · simp only [roundMinutes]; split <;> omega

/-- **C109**: the text of a `DateTime64` of up to nine digits, before the last day of the year 9999, is a call with a text that stands for
exactly the instant, and with the number of digits. -/
theorem C109_datetime64_partial (cfg : Cfg) (lib : Rfc3339) (hl : Rfc3339.Keeps lib) (base : Ext) (tz : Tz) (x : BitVec 64) (p : Nat) (hp : p ≤ 9)
    (hx : ((x.toNat / 10 ^ p : Nat) : Int) ≤ lastSecond - 86400) (hw : WholeMinutes lib tz (x.toNat / 10 ^ p : Nat)) :
    ∃ s i, (Value.dateTime64 tz x p).shown cfg lib base = .ok (time64Call s p) ∧ lib.read s = .ok i ∧ Inst.ns i = x.toNat * unitNs p := by
  obtain ⟨h1, h2⟩ := dt64_inst cfg chronoErr hp x.isLt (by omega : ((x.toNat / 10 ^ p : Nat) : Int) ≤ lastSecond)
  refine ⟨lib.text tz ⟨(x.toNat / 10 ^ p : Nat), x.toNat % 10 ^ p * 10 ^ (9 - p)⟩, _, ?_,
    read_text_whole hl tz _ (Int.natCast_nonneg _) hx h2 hw, dt64_ns hp⟩
  unfold Value.shown
  rw [Value.text, time_arm, show chronoFromSql cfg (.dateTime64 p tz) (.dateTime64 tz x p) = (dt64ToInst cfg chronoErr p x.toNat >>= fun i => .ok (tz, i)) from rfl, h1]
  rfl

/-! ### where it is false -/

/-- **C109** is false: 256-bit decimals of a validated type, at any depth, and queries that mention one, panic. -/
theorem C109_decimal256_false (cfg : Cfg) (lib : Rfc3339) (base : Ext) (x : BitVec 256) :
    (Ty.array (.decimal256 2)).validateValue cfg (.array [.decimal256 2 x]) = true ∧
    (Value.array [.decimal256 2 x]).shown cfg lib base = .panic ∧
    queryWithArguments cfg lib base [.other (ch! "SELECT "), .clientArgument (ch! "1")] [.decimal256 2 x] = .panic :=
  ⟨rfl, rfl, rfl⟩

/-- **C109** is false: one second before 1970 in milliseconds, as a server sends it, panics when it is shown. -/
theorem C109_time_false (lib : Rfc3339) (base : Ext) :
    (Ty.dateTime64 3 tzUTC).validateValue cfgDebug (.dateTime64 tzUTC (BitVec.ofInt 64 (-1000)) 3) = true ∧
    (∀ cfg : Cfg, (Value.dateTime64 tzUTC (BitVec.ofInt 64 (-1000)) 3).shown cfg lib base = .panic) := by
  refine ⟨rfl, fun cfg => (C109_exact_partial cfg lib base _ ?_).2.mpr ⟨_, .self _, .time _ _ _ ?_⟩⟩
  · intro tz x p h
    cases h
    decide
  · rintro ⟨h, _⟩
    revert h
    unfold chronoMax
    decide

/-- **C109** is false: ten digits, which type validation lets through, panic in a build with overflow checks, even for the time 0. -/
theorem C109_precision_false (lib : Rfc3339) (base : Ext) (tz : Tz) :
    (Ty.dateTime64 10 tz).validate = true ∧ (Value.dateTime64 tz 0#64 10).shown cfgDebug lib base = .panic := by
  refine ⟨rfl, (C109_exact_partial cfgDebug lib base _ ?_).2.mpr ⟨_, .self _, .time _ _ _ ?_⟩⟩
  · intro tz x p h
    cases h
    decide
  · rintro ⟨_, h⟩
    exact absurd (h rfl) (by decide)

/-- **C109** is false: a map with a key and no value for it, which type validation lets through, panics. -/
theorem C109_map_false (cfg : Cfg) (lib : Rfc3339) (base : Ext) :
    (Ty.map .uint8 .uint8).validateValue cfg (.map [.uint8 1] []) = true ∧ (Value.map [.uint8 1] []).shown cfg lib base = .panic :=
  ⟨rfl, rfl⟩

/-- **C109** is false in Monrovia, which was 44 minutes 30 seconds from UTC: the text of a time there stands for another one. -/
theorem C109_seconds_false (cfg : Cfg) (lib : Rfc3339) (hl : Rfc3339.Keeps lib) (base : Ext) (tz : Tz) (h : lib.offset tz 86400 = -2670) :
    ∃ s, (Value.dateTime tz 86400#32).shown cfg lib base = .ok (timeCall s) ∧ lib.read s = .ok ⟨86430, 0⟩ := by
  refine ⟨lib.text tz ⟨86400, 0⟩, rfl, ?_⟩
  rw [read_text hl tz ⟨86400, 0⟩ (by decide) (by unfold lastSecond; decide) (by decide)]
  simp only [h]
  rfl

/-! ### refused values of inserts -/

/-- **C109** for inserts: refusing a value panics, instead of giving an error, exactly when its column has a valid type it does not fit and
some part of it is a 256-bit decimal, a time outside the calendar or a map with more keys than values or fewer. -/
theorem C109_refusal (cfg : Cfg) (lib : Rfc3339) (base : Ext) (t : Ty) (v : Value) (hp : Precisions v) :
    (t.checkValue cfg (timeExt cfg lib base) v = .panic ↔
      t.validate = true ∧ t.innerValidate cfg v = false ∧ ∃ w, PartOf w v ∧ Unshowable cfg w) ∧
    (t.checkValue cfg (timeExt cfg lib base) v = .err .typeParse ↔
      t.validate = false ∨ (t.innerValidate cfg v = false ∧ ∀ w, PartOf w v → ¬ Unshowable cfg w)) := by
  obtain ⟨h1, h2⟩ := C109_exact_partial cfg lib base v hp
  unfold Value.shown at h1 h2
  rw [← h1, ← h2]
  unfold Ty.checkValue
  cases t.validate <;> cases t.innerValidate cfg v <;> simp
  rcases shown_ok cfg lib base v hp with ⟨s, h⟩ | ⟨h, _⟩ <;> unfold Value.shown at h <;> simp [h, Res.isPanic]

/-- **C109** for inserts: when every value that its column refuses is without such parts, a batch with a refused value fails with an
error of the protocol or of the types (so does the insert of that batch). -/
theorem C109_refused_batch (cfg : Cfg) (lib : Rfc3339) (base : Ext) (header : IMap Ty) (rows : List (Res (List (Str × Value))))
    (row : List (Str × Value)) (hr : .ok row ∈ rows) (e : Str × Value) (he : e ∈ row) (hu : Unsendable cfg header e) (hn : .panic ∉ rows)
    (hs : ∀ row', .ok row' ∈ rows → ∀ e' ∈ row', Unsendable cfg header e' →
      Precisions e'.2 ∧ ∀ w, PartOf w e'.2 → ¬ Unshowable cfg w) :
    ∃ x, batchBlock cfg (timeExt cfg lib base) header rows = .err x ∧ (x = .protocol ∨ x = .typeParse) := by
  refine (C38_refused cfg (timeExt cfg lib base) header rows row hr e he hu).2 hn fun row' h1 e' h2 h3 => ?_
  obtain ⟨hp, h⟩ := hs row' h1 e' h2 h3
  obtain ⟨s, h⟩ := (C109_exact_partial cfg lib base e'.2 hp).1.mpr h
  unfold Showable
  unfold Value.shown at h
  rw [h]
  intro q; cases q

/-! ### cases -/

/-- The texts of a library that writes nothing. -/
def exShownBase : Ext where
  f32 _ := []
  f64 _ := []
  bf16 _ := []
  ipv6 _ := []
  dateTime _ _ := none
  dateTime64 _ _ _ := none
  geo _ := []

example := C109_datetime_partial cfgDebug exRfc exRfc_keeps exShownBase tzUTC 86400#32 rfl
example := C109_datetime64_partial cfgDebug exRfc exRfc_keeps exShownBase (ch! "Europe/Berlin") 1700000000123#64 3 (by decide) (by unfold lastSecond; decide) rfl
example := C109_seconds_false cfgDebug exRfc exRfc_keeps exShownBase (ch! "Africa/Monrovia") rfl
/-- A 256-bit decimal in a column of bytes: its refusal panics; a 128-bit one is refused with an error. -/
example : (Ty.array .uint8).checkValue cfgDebug (timeExt cfgDebug exRfc exShownBase) (.array [.decimal256 3 5]) = .panic ∧
    (Ty.array .uint8).checkValue cfgDebug (timeExt cfgDebug exRfc exShownBase) (.array [.decimal128 3 5]) = .err .typeParse := by
  constructor
  · refine (C109_refusal cfgDebug exRfc exShownBase _ _ ?_).1.mpr ⟨rfl, rfl, _, .array (List.mem_singleton_self _) (.self _), .decimal _ _⟩
    intro tz x p h; cases h with | array hx h => rw [List.mem_singleton] at hx; subst hx; cases h
  · refine (C109_refusal cfgDebug exRfc exShownBase _ _ ?_).2.mpr (.inr ⟨rfl, ?_⟩)
    · intro tz x p h; cases h with | array hx h => rw [List.mem_singleton] at hx; subst hx; cases h
    · intro w h q
      cases h with
      | self => cases q
      | array hx h => rw [List.mem_singleton] at hx; subst hx; cases h; cases q
/-- A list of times, with NULL. -/
example : ∃ s, (Value.array [.dateTime64 tzUTC 1700000000123#64 3, .null]).shown cfgDebug exRfc exShownBase = .ok s := by
  refine (C109_column_partial cfgDebug exRfc exShownBase (.array (.nullable (.dateTime64 3 tzUTC))) _ ?_ ?_ ?_).1.mpr ?_
  · simp only [Storable]
    refine ⟨_, rfl, fun x hx => ?_⟩
    rcases List.mem_cons.mp hx with rfl | hx
    · exact .inr ⟨_, rfl⟩
    · rw [List.mem_singleton] at hx
      exact .inl ⟨hx, rfl⟩
  · intro p h; cases h with | array h => cases h with | nullable h => cases h
  · intro p tz h; cases h with | array h => cases h with | nullable h => cases h with | self => decide
  · intro tz x p h
    cases h with
    | array hx h =>
      rcases List.mem_cons.mp hx with rfl | hx
      · cases h; unfold chronoMax; decide
      · rw [List.mem_singleton] at hx
        subst hx; cases h

end Klick
