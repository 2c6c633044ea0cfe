import Verif.Accepted
/-
C95: what is accepted as a type name.
-/
namespace Klick
open Spec

theorem mapL_inv {α β : Type} {f : β → Res α} : ∀ {bs : List β} {as : List α}, Res.mapL f bs = .ok as →
    bs.length = as.length ∧ ∀ p ∈ as.zip bs, f p.2 = .ok p.1
  | [], as, h => by
    cases h; exact ⟨rfl, by simp⟩
  | b :: bs, as, h => by
    simp only [Res.mapL] at h
    rw [Res.bind_eq_ok] at h
    obtain ⟨a, h1, h⟩ := h
    rw [Res.bind_eq_ok] at h
    obtain ⟨as', h2, h⟩ := h
    cases h
    obtain ⟨h3, h4⟩ := mapL_inv h2
    refine ⟨by simp [h3], ?_⟩
    intro p hp
    rw [List.zip_cons_cons] at hp
    rcases List.mem_cons.mp hp with rfl | hp
    · exact h1
    · exact h4 p hp

theorem listed_core {cfg : Cfg} {s : Str} {args : List Str} (h : Listed cfg s args) : ∀ a ∈ args, trim a = a := by
  obtain ⟨ps, _, _, rfl⟩ := argLoop_iff.mp (listed_iff.mp h)
  intro a ha
  obtain ⟨p, _, rfl⟩ := List.mem_map.mp ha
  exact trim_idem p

theorem applied_core {cfg : Cfg} {n s : Str} {args : List Str} (h : Applied cfg n args s) : ∀ a ∈ args, trim a = a := by
  obtain ⟨_, _, _, _, _, _, h⟩ := h
  exact listed_core h

theorem applied_length {cfg : Cfg} {s : Str} {args : List Str} (hne : (eatIdent cfg s).1 ≠ []) (h : parseArgs cfg (trim (eatIdent cfg s).2) = .ok args) :
    ∀ a ∈ args, a.length < s.length := by
  intro a ha
  have h1 := parseArgs_length h a ha
  have h2 := trim_length_le (eatIdent cfg s).2
  have h3 := congrArg List.length (eatIdent_append cfg s)
  rw [List.length_append] at h3
  omega

theorem withArgs_accepted {cfg : Cfg} {ident s : Str} {args : List Str} {t : Ty} (ha : Applied cfg ident args s)
    (ih : ∀ a ∈ args, ∀ u, Ty.parse cfg a = .ok u → Accepted cfg u a) (h : withArgs cfg (Ty.parse cfg) ident args = .ok t) : Accepted cfg t s := by
  have htrim := applied_core ha
  unfold withArgs at h
  replace h := ite_cases h
  rcases h with ⟨rfl, h⟩ | ⟨_, h⟩
  · split at h
    rotate_left
    · cases h
    rename_i a b
    rw [Res.bind_eq_ok] at h
    obtain ⟨p, h1, h⟩ := h
    rw [Res.bind_eq_ok] at h
    obtain ⟨n, h2, h⟩ := h
    have h1 := parseNum_iff.mp h1
    have h2 := parseNum_iff.mp h2
    rcases ite_cases h with ⟨hp, h⟩ | ⟨hp, h⟩
    · cases h; exact .digits9 hp h1 h2 ha
    rcases ite_cases h with ⟨hp', h⟩ | ⟨hp', h⟩
    · cases h; exact .digits18 (by omega) hp' h1 h2 ha
    rcases ite_cases h with ⟨hp'', h⟩ | ⟨hp'', h⟩
    · cases h; exact .digits38 (by omega) hp'' h1 h2 ha
    rcases ite_cases h with ⟨hp3, h⟩ | ⟨hp3, h⟩
    · cases h; exact .digits76 (by omega) hp3 h1 h2 ha
    · cases h
  replace h := ite_cases h
  rcases h with ⟨rfl, h⟩ | ⟨_, h⟩
  · split at h
    rotate_left
    · cases h
    rename_i a
    rw [Res.bind_eq_ok] at h
    obtain ⟨n, h1, h⟩ := h
    cases h; exact .decimal32 (parseNum_iff.mp h1) ha
  replace h := ite_cases h
  rcases h with ⟨rfl, h⟩ | ⟨_, h⟩
  · split at h
    rotate_left
    · cases h
    rename_i a
    rw [Res.bind_eq_ok] at h
    obtain ⟨n, h1, h⟩ := h
    cases h; exact .decimal64 (parseNum_iff.mp h1) ha
  replace h := ite_cases h
  rcases h with ⟨rfl, h⟩ | ⟨_, h⟩
  · split at h
    rotate_left
    · cases h
    rename_i a
    rw [Res.bind_eq_ok] at h
    obtain ⟨n, h1, h⟩ := h
    cases h; exact .decimal128 (parseNum_iff.mp h1) ha
  replace h := ite_cases h
  rcases h with ⟨rfl, h⟩ | ⟨_, h⟩
  · split at h
    rotate_left
    · cases h
    rename_i a
    rw [Res.bind_eq_ok] at h
    obtain ⟨n, h1, h⟩ := h
    cases h; exact .decimal256 (parseNum_iff.mp h1) ha
  replace h := ite_cases h
  rcases h with ⟨rfl, h⟩ | ⟨_, h⟩
  · split at h
    rotate_left
    · cases h
    rename_i a
    rw [Res.bind_eq_ok] at h
    obtain ⟨n, h1, h⟩ := h
    cases h; exact .fixedString (parseNum_iff.mp h1) ha
  replace h := ite_cases h
  rcases h with ⟨rfl, h⟩ | ⟨_, h⟩
  · split at h
    rotate_left
    · cases h
    rename_i a
    rw [Res.bind_eq_ok] at h
    obtain ⟨n, h1, h⟩ := h
    cases h; exact .dateTime (parseTz_iff.mp h1) ha
  replace h := ite_cases h
  rcases h with ⟨rfl, h⟩ | ⟨_, h⟩
  · split at h
    · rw [Res.bind_eq_ok] at h
      obtain ⟨p, h1, h⟩ := h
      rw [Res.bind_eq_ok] at h
      obtain ⟨tz, h2, h⟩ := h
      rcases ite_cases h with ⟨hz, h⟩ | ⟨_, h⟩
      · cases h; exact .dateTime64 (parseNum_iff.mp h1) ⟨unquote_iff.mp h2, hz⟩ ha
      · cases h
    · rw [Res.bind_eq_ok] at h
      obtain ⟨p, h1, h⟩ := h
      cases h; exact .dateTime64Utc (parseNum_iff.mp h1) ha
    · cases h
  replace h := ite_cases h
  rcases h with ⟨rfl, h⟩ | ⟨_, h⟩
  · rw [Res.bind_eq_ok] at h
    obtain ⟨vs, h1, h⟩ := h
    cases h
    obtain ⟨h2, h3⟩ := mapL_inv h1
    refine .enum8 h2 (fun x hx => ?_) ha
    have := h3 x hx
    rw [htrim x.2 (List.of_mem_zip hx).2] at this
    exact (parseEnumVariant_iff (by decide)).mp this
  replace h := ite_cases h
  rcases h with ⟨rfl, h⟩ | ⟨_, h⟩
  · rw [Res.bind_eq_ok] at h
    obtain ⟨vs, h1, h⟩ := h
    cases h
    obtain ⟨h2, h3⟩ := mapL_inv h1
    refine .enum16 h2 (fun x hx => ?_) ha
    have := h3 x hx
    rw [htrim x.2 (List.of_mem_zip hx).2] at this
    exact (parseEnumVariant_iff (by decide)).mp this
  replace h := ite_cases h
  rcases h with ⟨rfl, h⟩ | ⟨_, h⟩
  · split at h
    rotate_left
    · cases h
    rename_i a
    rw [Res.bind_eq_ok] at h
    obtain ⟨u, h1, h⟩ := h
    cases h; exact .lowCardinality (ih a (by simp) u h1) ha
  replace h := ite_cases h
  rcases h with ⟨rfl, h⟩ | ⟨_, h⟩
  · split at h
    rotate_left
    · cases h
    rename_i a
    rw [Res.bind_eq_ok] at h
    obtain ⟨u, h1, h⟩ := h
    cases h; exact .array (ih a (by simp) u h1) ha
  replace h := ite_cases h
  rcases h with ⟨rfl, h⟩ | ⟨_, h⟩
  · cases h
  replace h := ite_cases h
  rcases h with ⟨rfl, h⟩ | ⟨_, h⟩
  · rw [Res.bind_eq_ok] at h
    obtain ⟨ts, h1, h⟩ := h
    cases h
    obtain ⟨h2, h3⟩ := mapL_inv h1
    refine .tuple h2 (fun u a hx => ?_) ha
    have := h3 (u, a) hx
    dsimp only at this
    rw [htrim a (List.of_mem_zip hx).2] at this
    exact ih a (List.of_mem_zip hx).2 u this
  replace h := ite_cases h
  rcases h with ⟨rfl, h⟩ | ⟨_, h⟩
  · split at h
    rotate_left
    · cases h
    rename_i a
    rw [Res.bind_eq_ok] at h
    obtain ⟨u, h1, h⟩ := h
    cases h; exact .nullable (ih a (by simp) u h1) ha
  replace h := ite_cases h
  rcases h with ⟨rfl, h⟩ | ⟨_, h⟩
  · split at h
    rotate_left
    · cases h
    rename_i a b
    rw [Res.bind_eq_ok] at h
    obtain ⟨k, h1, h⟩ := h
    rw [Res.bind_eq_ok] at h
    obtain ⟨v, h2, h⟩ := h
    cases h; exact .map (ih a (by simp) k h1) (ih b (by simp) v h2) ha
  · cases h

theorem parse_accepted (cfg : Cfg) : ∀ (n : Nat) (s : Str), s.length < n → ∀ t, Ty.parse cfg s = .ok t → Accepted cfg t s := by
  intro n
  induction n with
  | zero => intro s h; omega
  | succ n ih =>
    intro s hs t h
    rw [parse_unfold] at h
    unfold parseStep at h
    dsimp only at h
    rcases ite_cases h with ⟨_, h⟩ | ⟨hne, h⟩
    · cases h
    have hne : (eatIdent cfg s).1 ≠ [] := by simpa using hne
    rcases ite_cases h with ⟨hb, h⟩ | ⟨_, h⟩
    · have := Accepted.word (noArgs_plainly h) (blank_iff.mpr (List.isEmpty_iff.mp hb))
      rwa [eatIdent_append] at this
    · rw [Res.bind_eq_ok] at h
      obtain ⟨args, h1, h2⟩ := h
      refine withArgs_accepted (applied_of h1) (fun a ha u hu => ih a ?_ u hu) h2
      have := applied_length hne h1 a ha
      omega

theorem accepted_parse {cfg : Cfg} (hs : SpaceApart cfg) {t : Ty} {s : Str} (h : Accepted cfg t s) : Ty.parse cfg s = .ok t := by
  induction h with
  | word hp hw => rw [parse_unfold]; exact parseStep_word hs hp hw
  | fixedString hn ha =>
    rw [parse_unfold, parseStep_applied hs ⟨_, _, rfl, rfl, rfl⟩ ha]
    show (parseNum _ >>= fun s => Res.ok (Ty.fixedString s)) = _
    rw [parseNum_iff.mpr hn]; rfl
  | decimal32 hn ha =>
    rw [parse_unfold, parseStep_applied hs ⟨_, _, rfl, rfl, rfl⟩ ha]
    show (parseNum _ >>= fun s => Res.ok (Ty.decimal32 s)) = _
    rw [parseNum_iff.mpr hn]; rfl
  | decimal64 hn ha =>
    rw [parse_unfold, parseStep_applied hs ⟨_, _, rfl, rfl, rfl⟩ ha]
    show (parseNum _ >>= fun s => Res.ok (Ty.decimal64 s)) = _
    rw [parseNum_iff.mpr hn]; rfl
  | decimal128 hn ha =>
    rw [parse_unfold, parseStep_applied hs ⟨_, _, rfl, rfl, rfl⟩ ha]
    show (parseNum _ >>= fun s => Res.ok (Ty.decimal128 s)) = _
    rw [parseNum_iff.mpr hn]; rfl
  | decimal256 hn ha =>
    rw [parse_unfold, parseStep_applied hs ⟨_, _, rfl, rfl, rfl⟩ ha]
    show (parseNum _ >>= fun s => Res.ok (Ty.decimal256 s)) = _
    rw [parseNum_iff.mpr hn]; rfl
  | digits9 hp h1 h2 ha =>
    rw [parse_unfold, parseStep_applied hs ⟨_, _, rfl, rfl, rfl⟩ ha]
    show (parseNum _ >>= fun p => parseNum _ >>= fun s => if p ≤ 9 then Res.ok (Ty.decimal32 s) else _) = _
    rw [parseNum_iff.mpr h1, parseNum_iff.mpr h2, Res.bind_ok, Res.bind_ok, if_pos hp]
  | digits18 hp hp' h1 h2 ha =>
    rw [parse_unfold, parseStep_applied hs ⟨_, _, rfl, rfl, rfl⟩ ha]
    show (parseNum _ >>= fun p => parseNum _ >>= fun s => if p ≤ 9 then Res.ok (Ty.decimal32 s) else if p ≤ 18 then Res.ok (Ty.decimal64 s) else _) = _
    rw [parseNum_iff.mpr h1, parseNum_iff.mpr h2, Res.bind_ok, Res.bind_ok, if_neg (by omega), if_pos hp']
  | digits38 hp hp' h1 h2 ha =>
    rw [parse_unfold, parseStep_applied hs ⟨_, _, rfl, rfl, rfl⟩ ha]
    show (parseNum _ >>= fun p => parseNum _ >>= fun s => if p ≤ 9 then Res.ok (Ty.decimal32 s) else if p ≤ 18 then Res.ok (Ty.decimal64 s)
      else if p ≤ 38 then Res.ok (Ty.decimal128 s) else _) = _
    rw [parseNum_iff.mpr h1, parseNum_iff.mpr h2, Res.bind_ok, Res.bind_ok, if_neg (by omega), if_neg (by omega), if_pos hp']
  | digits76 hp hp' h1 h2 ha =>
    rw [parse_unfold, parseStep_applied hs ⟨_, _, rfl, rfl, rfl⟩ ha]
    show (parseNum _ >>= fun p => parseNum _ >>= fun s => if p ≤ 9 then Res.ok (Ty.decimal32 s) else if p ≤ 18 then Res.ok (Ty.decimal64 s)
      else if p ≤ 38 then Res.ok (Ty.decimal128 s) else if p ≤ 76 then Res.ok (Ty.decimal256 s) else _) = _
    rw [parseNum_iff.mpr h1, parseNum_iff.mpr h2, Res.bind_ok, Res.bind_ok, if_neg (by omega), if_neg (by omega), if_neg (by omega), if_pos hp']
  | dateTime hz ha =>
    rw [parse_unfold, parseStep_applied hs ⟨_, _, rfl, rfl, rfl⟩ ha]
    show (parseTz cfg _ >>= fun tz => Res.ok (Ty.dateTime tz)) = _
    rw [parseTz_iff.mpr hz]; rfl
  | dateTime64 hp hz ha =>
    rw [parse_unfold, parseStep_applied hs ⟨_, _, rfl, rfl, rfl⟩ ha]
    show (parseNum _ >>= fun p => unquote _ >>= fun tz => if cfg.isTz tz then Res.ok (Ty.dateTime64 p tz) else _) = _
    rw [parseNum_iff.mpr hp, unquote_iff.mpr hz.1, Res.bind_ok, Res.bind_ok, if_pos hz.2]
  | dateTime64Utc hp ha =>
    rw [parse_unfold, parseStep_applied hs ⟨_, _, rfl, rfl, rfl⟩ ha]
    show (parseNum _ >>= fun p => Res.ok (Ty.dateTime64 p tzUTC)) = _
    rw [parseNum_iff.mpr hp]; rfl
  | @enum8 items s args hl hv ha =>
    rw [parse_unfold, parseStep_applied hs ⟨_, _, rfl, rfl, rfl⟩ ha]
    show (Res.mapL (fun a => parseEnumVariant 8 (trim a)) args >>= fun vs => Res.ok (Ty.enum8 vs)) = _
    rw [Props.mapL_zip items args hl (fun p hp => by
      rw [applied_core ha p.2 (List.of_mem_zip hp).2]; exact (parseEnumVariant_iff (by decide)).mpr (hv p hp))]
    rfl
  | @enum16 items s args hl hv ha =>
    rw [parse_unfold, parseStep_applied hs ⟨_, _, rfl, rfl, rfl⟩ ha]
    show (Res.mapL (fun a => parseEnumVariant 16 (trim a)) args >>= fun vs => Res.ok (Ty.enum16 vs)) = _
    rw [Props.mapL_zip items args hl (fun p hp => by
      rw [applied_core ha p.2 (List.of_mem_zip hp).2]; exact (parseEnumVariant_iff (by decide)).mpr (hv p hp))]
    rfl
  | lowCardinality _ ha ih =>
    rw [parse_unfold, parseStep_applied hs ⟨_, _, rfl, rfl, rfl⟩ ha]
    show (Ty.parse cfg _ >>= fun t => Res.ok (Ty.lowCardinality t)) = _
    rw [ih]; rfl
  | array _ ha ih =>
    rw [parse_unfold, parseStep_applied hs ⟨_, _, rfl, rfl, rfl⟩ ha]
    show (Ty.parse cfg _ >>= fun t => Res.ok (Ty.array t)) = _
    rw [ih]; rfl
  | nullable _ ha ih =>
    rw [parse_unfold, parseStep_applied hs ⟨_, _, rfl, rfl, rfl⟩ ha]
    show (Ty.parse cfg _ >>= fun t => Res.ok (Ty.nullable t)) = _
    rw [ih]; rfl
  | map _ _ ha ih1 ih2 =>
    rw [parse_unfold, parseStep_applied hs ⟨_, _, rfl, rfl, rfl⟩ ha]
    show (Ty.parse cfg _ >>= fun k => Ty.parse cfg _ >>= fun v => Res.ok (Ty.map k v)) = _
    rw [ih1, ih2]; rfl
  | @tuple ts s args hl hv ha ih =>
    rw [parse_unfold, parseStep_applied hs ⟨_, _, rfl, rfl, rfl⟩ ha]
    show (Res.mapL (fun a => Ty.parse cfg (trim a)) args >>= fun ts => Res.ok (Ty.tuple ts)) = _
    rw [Props.mapL_zip ts args hl (fun p hp => by
      rw [applied_core ha p.2 (List.of_mem_zip hp).2]; exact ih p.1 p.2 hp)]
    rfl

theorem vetted_of {cfg : Cfg} {t : Ty} {s : Str} (h : Accepted cfg t s) : Vetted cfg t := by
  induction h with
  | word h _ => cases h <;> first | exact trivial | exact .inl rfl | assumption
  | fixedString h _ => exact h.1
  | decimal32 h _ => exact h.1
  | decimal64 h _ => exact h.1
  | decimal128 h _ => exact h.1
  | decimal256 h _ => exact h.1
  | digits9 _ _ h _ => exact h.1
  | digits18 _ _ _ h _ => exact h.1
  | digits38 _ _ _ h _ => exact h.1
  | digits76 _ _ _ h _ => exact h.1
  | dateTime h _ => exact .inr h.2
  | dateTime64 h1 h _ => exact ⟨h1.1, .inr h.2⟩
  | dateTime64Utc h1 _ => exact ⟨h1.1, .inl rfl⟩
  | enum8 _ _ _ => exact trivial
  | enum16 _ _ _ => exact trivial
  | lowCardinality _ _ ih => exact ih
  | array _ _ ih => exact ih
  | nullable _ _ ih => exact ih
  | map _ _ _ ih1 ih2 => exact ⟨ih1, ih2⟩
  | @tuple ts s args hl _ _ ih =>
    show Vetteds cfg ts
    have key : ∀ (ts : List Ty) (args : List Str), args.length = ts.length → (∀ t a, (t, a) ∈ ts.zip args → Vetted cfg t) → Vetteds cfg ts := by
      intro ts
      induction ts with
      | nil => intro _ _ _; exact trivial
      | cons t ts ih =>
        intro args hl h
        cases args with
        | nil => simp at hl
        | cons a args => exact ⟨h t a (by simp), ih args (by simpa using hl) (fun u b hm => h u b (by simp [hm]))⟩
    exact key ts args hl ih

namespace Props

/-- C95: exactly the texts of the grammar of `Spec/Accepted.lean` are taken for type names, and for the types it says. Missing from the
full claim: that these are names of types; the grammar is wider (`C95_accepted_false`). -/
theorem C95_accepted_partial (cfg : Cfg) (hs : SpaceApart cfg) (s : Str) (t : Ty) : Ty.parse cfg s = .ok t ↔ Accepted cfg t s :=
  ⟨parse_accepted cfg _ s (Nat.lt_succ_self _) t, accepted_parse hs⟩

/-- Whatever is accepted names existing time zones only, and numbers that fit. -/
theorem C95_vetted (cfg : Cfg) (s : Str) (t : Ty) (h : Ty.parse cfg s = .ok t) : Vetted cfg t :=
  vetted_of (parse_accepted cfg _ s (Nat.lt_succ_self _) t h)

/-- What is not so: that every accepted text is the name of a type. A comma after the last argument, a sign, leading zeros and empty lists
are accepted, and the white space at the ends of an enum's name, which is part of the name, is dropped. -/
theorem C95_accepted_false (cfg : Cfg) :
    Ty.parse cfg (ch! "Array(UInt8,)") = .ok (.array .uint8) ∧ Ty.parse cfg (ch! "FixedString(+007)") = .ok (.fixedString 7) ∧
    Ty.parse cfg (ch! "Enum8()") = .ok (.enum8 []) ∧ Ty.parse cfg (ch! "Tuple()") = .ok (.tuple []) ∧
    Ty.parse cfg (ch! "Enum8(' a' = 1, 'a' = 2)") = .ok (.enum8 [(ch! "a", 1#8), (ch! "a", 2#8)]) := by
  refine ⟨rfl, rfl, rfl, rfl, rfl⟩

example : SpaceApart cfgZ := fun _ _ => ⟨rfl, rfl⟩
set_option maxRecDepth 4000 in
/-- A nested name with an enum, a zone and a sign, all of it in the grammar. -/
example : ∃ t, Accepted cfgZ t (ch! "Map (LowCardinality(String) , Tuple(Enum8( 'a b'=-1 ),DateTime64(+03, 'UTC'),) )") := by
  exact ⟨.map (.lowCardinality .string) (.tuple [.enum8 [(ch! "a b", 255#8)], .dateTime64 3 tzUTC]),
    (C95_accepted_partial cfgZ (fun _ _ => ⟨rfl, rfl⟩) _ _).mp rfl⟩
example : ¬ ∃ t, Accepted cfgZ t (ch! "DateTime('Mars/Olympus')") := by
  rintro ⟨t, h⟩
  have := (C95_accepted_partial cfgZ (fun _ _ => ⟨rfl, rfl⟩) _ _).mpr h
  have e : Ty.parse cfgZ (ch! "DateTime('Mars/Olympus')") = .err .typeParse := rfl
  rw [e] at this; cases this

end Props
end Klick
