import Verif.Spec.Case
/-
C55: the rename rules.
-/
namespace Klick
open Spec

theorem char_eq {a b : Char} (h : a.toNat = b.toNat) : a = b := Char.ext (UInt32.toNat_inj.mp h)

/-- The letters, one by one. -/
theorem asciiUpper_eq (c : Char) : asciiUpper c = upperOf c := by
  by_cases h : 97 ≤ c.toNat ∧ c.toNat ≤ 122
  · have hall : ∀ n, n < 26 → asciiUpper (Char.ofNat (97 + n)) = upperOf (Char.ofNat (97 + n)) := by decide
    have hc : c = Char.ofNat (97 + (c.toNat - 97)) := by
      have : 97 + (c.toNat - 97) = c.toNat := by omega
      rw [this, Char.ofNat_toNat]
    rw [hc]
    exact hall _ (by omega)
  · have e1 : asciiUpper c = c := by unfold asciiUpper; rw [if_neg h]
    have e2 : upperTable.find? (fun e => e.1 == c) = none := by
      rw [List.find?_eq_none]
      intro e he
      have hr : ∀ e ∈ upperTable, 97 ≤ e.1.toNat ∧ e.1.toNat ≤ 122 := by decide
      intro hc
      have : e.1 = c := by simpa using hc
      exact h (this ▸ hr e he)
    rw [e1, upperOf, e2]; rfl

theorem upper_underscore (c : Char) : upperOf c = '_' ↔ c = '_' := by
  rw [← asciiUpper_eq]
  unfold asciiUpper
  by_cases h : 97 ≤ c.toNat ∧ c.toNat ≤ 122
  · rw [if_pos h]
    have hall : ∀ n, n < 26 → Char.ofNat (97 + n - 32) ≠ '_' ∧ Char.ofNat (97 + n) ≠ '_' := by decide
    have := hall (c.toNat - 97) (by omega)
    have e : 97 + (c.toNat - 97) = c.toNat := by omega
    rw [e, Char.ofNat_toNat] at this
    simp [this.1, this.2]
  · rw [if_neg h]

theorem map_joined (f : Char → Char) (a b : Char) (hab : f a = b) (ws : List Str) : (joined a ws).map f = joined b (ws.map (·.map f)) := by
  match ws with
  | [] => rfl
  | [w] => rfl
  | w :: v :: ws =>
    have := map_joined f a b hab (v :: ws)
    simp only [joined, List.map_append, List.map_cons, hab] at this ⊢
    rw [this]

theorem dashes_joined (ws : List Str) (h : ∀ w ∈ ws, '_' ∉ w) : dashes (joined '_' ws) = joined '-' ws := by
  unfold dashes
  rw [map_joined _ '_' '-' (by simp)]
  congr 1
  rw [List.map_congr_left (g := id)]
  · simp
  · intro w hw
    rw [List.map_congr_left (g := id)]
    · simp
    · intro c hc
      have : c ≠ '_' := fun he => h w hw (he ▸ hc)
      simp [this]

theorem pascal_word (w rest : Str) (h : '_' ∉ w) : pascalLoop false (w ++ '_' :: rest) = w ++ pascalLoop true rest := by
  induction w with
  | nil => simp [pascalLoop]
  | cons c w ih =>
    simp only [List.mem_cons, not_or] at h
    simp only [List.cons_append, pascalLoop]
    rw [if_neg (fun e => h.1 e.symm), ih h.2]
    simp

theorem pascal_last (w : Str) (h : '_' ∉ w) : pascalLoop false w = w := by
  induction w with
  | nil => rfl
  | cons c w ih =>
    simp only [List.mem_cons, not_or] at h
    simp only [pascalLoop]
    rw [if_neg (fun e => h.1 e.symm), ih h.2]
    simp

theorem pascal_joined (ws : List Str) (h : ∀ w ∈ ws, '_' ∉ w) : pascalLoop true (joined '_' ws) = (ws.map capitalised).flatten := by
  match ws with
  | [] => rfl
  | [w] =>
    cases w with
    | nil => rfl
    | cons c w =>
      have := h (c :: w) (by simp)
      simp only [List.mem_cons, not_or] at this
      simp only [joined, pascalLoop]
      rw [if_neg (fun e => this.1 e.symm), pascal_last w this.2]
      simp [capitalised, asciiUpper_eq]
  | w :: v :: ws =>
    have ih := pascal_joined (v :: ws) (fun u hu => h u (by simp at hu ⊢; exact .inr hu))
    have hw := h w (by simp)
    rw [List.map_cons, List.flatten_cons, ← ih]
    cases w with
    | nil => simp [joined, pascalLoop, capitalised]
    | cons c w =>
      simp only [List.mem_cons, not_or] at hw
      simp only [joined, List.cons_append, pascalLoop]
      rw [if_neg (fun e => hw.1 e.symm), pascal_word w _ hw.2]
      simp [capitalised, asciiUpper_eq]

theorem lower_upper (c : Char) (h : c ∈ ch! "abcdefghijklmnopqrstuvwxyz0123456789") : (upperOf c).toNat < 128 ∧ asciiLower (upperOf c) = c := by
  have hall : ∀ c ∈ (ch! "abcdefghijklmnopqrstuvwxyz0123456789" : Str), (upperOf c).toNat < 128 ∧ asciiLower (upperOf c) = c := by decide
  exact hall c h

/-- Every rule gives what it promises, for every name made of words (the first of which begins, for `camelCase`, with a
lower-case letter or digit; underscores at the ends or doubled are empty words). -/
theorem C55_rule_as_promised (r : RenameRule) (ws : List Str) (h : ∀ w ∈ ws, '_' ∉ w) (hc : r = .camelCase → ∃ w ws', ws = w :: ws' ∧ Word w) :
    r.apply (joined '_' ws) = .ok (promised r ws) := by
  have hup : (joined '_' ws).map asciiUpper = joined '_' (ws.map upperWord) := by
    rw [map_joined asciiUpper '_' '_' (by decide)]
    congr 1
    apply List.map_congr_left
    intro w _
    unfold upperWord
    apply List.map_congr_left
    intro c _
    exact asciiUpper_eq c
  have hup' : ∀ w ∈ ws.map upperWord, '_' ∉ w := by
    intro w hw
    obtain ⟨v, hv, rfl⟩ := List.mem_map.mp hw
    intro hm
    obtain ⟨c, hc, he⟩ := List.mem_map.mp hm
    exact h v hv ((upper_underscore c).mp he ▸ hc)
  cases r with
  | none => rfl
  | lowerCase => rfl
  | snakeCase => rfl
  | upperCase => simp only [RenameRule.apply, promised, hup]
  | screamingSnakeCase => simp only [RenameRule.apply, promised, hup]
  | kebabCase => simp only [RenameRule.apply, promised, dashes_joined ws h]
  | screamingKebabCase => simp only [RenameRule.apply, promised, hup, dashes_joined _ hup']
  | pascalCase => simp only [RenameRule.apply, promised, pascal_joined ws h]
  | camelCase =>
    obtain ⟨w, ws', rfl, c, cs, rfl, hcl, _⟩ := hc rfl
    obtain ⟨l1, l2⟩ := lower_upper c hcl
    simp only [RenameRule.apply, promised, pascal_joined _ h, List.map_cons, List.flatten_cons, capitalised, List.cons_append, l1, if_true, l2,
      List.headD_cons, List.tail_cons]

example : RenameRule.camelCase.apply (ch! "created_at_2") = .ok (ch! "createdAt2") ∧ RenameRule.pascalCase.apply (ch! "created_at") = .ok (ch! "CreatedAt") ∧
    RenameRule.screamingKebabCase.apply (ch! "created_at") = .ok (ch! "CREATED-AT") := ⟨rfl, rfl, rfl⟩

/-- Every name is made of words. -/
theorem C55_words_exist (s : Str) : ∃ ws, s = joined '_' ws ∧ ∀ w ∈ ws, '_' ∉ w := by
  induction s with
  | nil => exact ⟨[], rfl, by simp⟩
  | cons c s ih =>
    obtain ⟨ws, h1, h2⟩ := ih
    by_cases hc : c = '_'
    · subst hc
      cases ws with
      | nil =>
        refine ⟨[[], []], by rw [h1]; rfl, ?_⟩
        intro w hw
        simp at hw
        simp [hw]
      | cons w ws =>
        refine ⟨[] :: w :: ws, by rw [h1]; rfl, ?_⟩
        intro v hv
        rw [List.mem_cons] at hv
        rcases hv with rfl | hv
        · simp
        · exact h2 v hv
    · cases ws with
      | nil => exact ⟨[[c]], by rw [h1]; rfl, by simpa using fun e => hc e.symm⟩
      | cons w ws =>
        refine ⟨(c :: w) :: ws, ?_, ?_⟩
        · rw [h1]; cases ws <;> rfl
        · intro v hv
          rw [List.mem_cons] at hv
          rcases hv with rfl | hv
          · simp only [List.mem_cons, not_or]; exact ⟨fun e => hc e.symm, h2 w (by simp)⟩
          · exact h2 v (List.mem_cons_of_mem _ hv)

/-! ### Distinct names -/

theorem upperOf_inj {a b : Char} (ha : a ∉ ch! "ABCDEFGHIJKLMNOPQRSTUVWXYZ") (hb : b ∉ ch! "ABCDEFGHIJKLMNOPQRSTUVWXYZ") (h : asciiUpper a = asciiUpper b) : a = b := by
  have key : ∀ c : Char, c ∉ ch! "ABCDEFGHIJKLMNOPQRSTUVWXYZ" → asciiUpper c = (if 97 ≤ c.toNat ∧ c.toNat ≤ 122 then Char.ofNat (c.toNat - 32) else c) ∧
      ¬ (65 ≤ c.toNat ∧ c.toNat ≤ 90) := by
    intro c hc
    refine ⟨rfl, fun hr => hc ?_⟩
    have hall : ∀ n, n < 26 → Char.ofNat (65 + n) ∈ (ch! "ABCDEFGHIJKLMNOPQRSTUVWXYZ" : Str) := by decide
    have := hall (c.toNat - 65) (by omega)
    have e : 65 + (c.toNat - 65) = c.toNat := by omega
    rwa [e, Char.ofNat_toNat] at this
  obtain ⟨a1, a2⟩ := key a ha
  obtain ⟨b1, b2⟩ := key b hb
  rw [a1, b1] at h
  have hsmall : ∀ n, n < 26 → (Char.ofNat (97 + n - 32)).toNat = 97 + n - 32 := by decide
  have hs : ∀ c : Char, 97 ≤ c.toNat ∧ c.toNat ≤ 122 → (Char.ofNat (c.toNat - 32)).toNat = c.toNat - 32 := by
    intro c hc
    have := hsmall (c.toNat - 97) (by omega)
    have e : 97 + (c.toNat - 97) = c.toNat := by omega
    rwa [e] at this
  by_cases ra : 97 ≤ a.toNat ∧ a.toNat ≤ 122 <;> by_cases rb : 97 ≤ b.toNat ∧ b.toNat ≤ 122
  · rw [if_pos ra, if_pos rb] at h
    have := congrArg Char.toNat h
    rw [hs a ra, hs b rb] at this
    exact char_eq (by omega)
  · rw [if_pos ra, if_neg rb] at h
    have := congrArg Char.toNat h
    rw [hs a ra] at this
    omega
  · rw [if_neg ra, if_pos rb] at h
    have := congrArg Char.toNat h
    rw [hs b rb] at this
    omega
  · rw [if_neg ra, if_neg rb] at h; exact h

theorem map_inj {f : Char → Char} {P : Char → Prop} (hf : ∀ a b, P a → P b → f a = f b → a = b) : ∀ (s t : Str), (∀ c ∈ s, P c) → (∀ c ∈ t, P c) →
    s.map f = t.map f → s = t
  | [], [], _, _, _ => rfl
  | [], _ :: _, _, _, h => by cases h
  | _ :: _, [], _, _, h => by cases h
  | a :: s, b :: t, hs, ht, h => by
    simp only [List.map_cons, List.cons.injEq] at h
    rw [hf a b (hs a (by simp)) (ht b (by simp)) h.1, map_inj hf s t (fun c hc => hs c (by simp [hc])) (fun c hc => ht c (by simp [hc])) h.2]

theorem asciiUpper_dash {c : Char} (h : c ≠ '-') : asciiUpper c ≠ '-' := by
  unfold asciiUpper
  by_cases hr : 97 ≤ c.toNat ∧ c.toNat ≤ 122
  · rw [if_pos hr]
    have hall : ∀ n, n < 26 → Char.ofNat (97 + n - 32) ≠ '-' := by decide
    have := hall (c.toNat - 97) (by omega)
    have e : 97 + (c.toNat - 97) = c.toNat := by omega
    rwa [e] at this
  · rw [if_neg hr]; exact h

theorem dash_inj (a b : Char) (ha : a ≠ '-') (hb : b ≠ '-') (h : (if a = '_' then '-' else a) = (if b = '_' then '-' else b)) : a = b := by
  by_cases h1 : a = '_' <;> by_cases h2 : b = '_'
  · rw [h1, h2]
  · rw [if_pos h1, if_neg h2] at h; exact absurd h.symm hb
  · rw [if_neg h1, if_pos h2] at h; exact absurd h ha
  · rw [if_neg h1, if_neg h2] at h; exact h

/-- Distinct snake_case names stay distinct under every rule that keeps the words apart. -/
theorem C55_distinct (r : RenameRule) (hr : r ≠ .pascalCase ∧ r ≠ .camelCase) (s t : Str) (hs : NoUpper s) (ht : NoUpper t)
    (h : r.apply s = r.apply t) : s = t := by
  have hU : s.map asciiUpper = t.map asciiUpper → s = t := by
    intro he
    exact map_inj (P := fun c => c ∉ ch! "ABCDEFGHIJKLMNOPQRSTUVWXYZ" ∧ c ≠ '-') (fun a b ha hb he => upperOf_inj ha.1 hb.1 he) s t hs ht he
  have hD : ∀ s t : Str, (∀ c ∈ s, c ≠ '-') → (∀ c ∈ t, c ≠ '-') → dashes s = dashes t → s = t := by
    intro s t hs ht he
    exact map_inj (P := fun c => c ≠ '-') dash_inj s t hs ht he
  have hUd : ∀ s : Str, NoUpper s → ∀ c ∈ s.map asciiUpper, c ≠ '-' := by
    intro s hs c hc
    obtain ⟨d, hd, rfl⟩ := List.mem_map.mp hc
    exact asciiUpper_dash (hs d hd).2
  cases r <;> simp only [RenameRule.apply, Res.ok.injEq] at h
  · exact h
  · exact h
  · exact hU h
  · exact absurd rfl hr.1
  · exact absurd rfl hr.2
  · exact h
  · exact hU h
  · exact hD s t (fun c hc => (hs c hc).2) (fun c hc => (ht c hc).2) h
  · exact hU (hD _ _ (hUd s hs) (hUd t ht) h)

theorem noUpper_tail {c : Char} {cs : Str} (h : NoUpper (c :: cs)) : NoUpper cs := fun d hd => h d (List.mem_cons_of_mem _ hd)

theorem upper_is_upper {c : Char} (h : c ∈ ch! "abcdefghijklmnopqrstuvwxyz") : upperOf c ∈ ch! "ABCDEFGHIJKLMNOPQRSTUVWXYZ" := by
  have hall : ∀ c ∈ (ch! "abcdefghijklmnopqrstuvwxyz" : Str), upperOf c ∈ (ch! "ABCDEFGHIJKLMNOPQRSTUVWXYZ" : Str) := by decide
  exact hall c h

theorem letter_inj {a b : Char} (ha : a ∈ ch! "abcdefghijklmnopqrstuvwxyz") (hb : b ∈ ch! "abcdefghijklmnopqrstuvwxyz") (h : upperOf a = upperOf b) : a = b := by
  have hall : ∀ a ∈ (ch! "abcdefghijklmnopqrstuvwxyz" : Str), ∀ b ∈ (ch! "abcdefghijklmnopqrstuvwxyz" : Str), upperOf a = upperOf b → a = b := by decide
  exact hall a ha b hb h

/-- The tail of a run of words up to the next capital. -/
theorem flat_split (cs ds : Str) (vs ws : List Str) (hc : NoUpper cs) (hd : NoUpper ds) (hv : ∀ w ∈ vs, LetterWord w) (hw : ∀ w ∈ ws, LetterWord w)
    (h : cs ++ (vs.map capitalised).flatten = ds ++ (ws.map capitalised).flatten) : cs = ds ∧ (vs.map capitalised).flatten = (ws.map capitalised).flatten := by
  have hhead : ∀ us : List Str, (∀ w ∈ us, LetterWord w) → (us.map capitalised).flatten = [] ∨
      ∃ c rest, (us.map capitalised).flatten = c :: rest ∧ c ∈ ch! "ABCDEFGHIJKLMNOPQRSTUVWXYZ" := by
    intro us hus
    cases us with
    | nil => exact .inl rfl
    | cons u us =>
      obtain ⟨c, cs, rfl, hcl, _⟩ := hus u (by simp)
      exact .inr ⟨upperOf c, cs ++ (us.map capitalised).flatten, by simp [capitalised], upper_is_upper hcl⟩
  induction cs generalizing ds with
  | nil =>
    cases ds with
    | nil => exact ⟨rfl, h⟩
    | cons d ds =>
      rcases hhead vs hv with h0 | ⟨c, rest, h0, h1⟩
      · rw [h0] at h; cases h
      · rw [List.nil_append, h0, List.cons_append, List.cons.injEq] at h
        exact absurd (h.1 ▸ h1) (hd d (by simp)).1
  | cons c cs ih =>
    cases ds with
    | nil =>
      rcases hhead ws hw with h0 | ⟨e, rest, h0, h1⟩
      · rw [h0] at h; cases h
      · rw [List.nil_append, h0, List.cons_append, List.cons.injEq] at h
        exact absurd (h.1 ▸ h1) (hc c (by simp)).1
    | cons d ds =>
      simp only [List.cons_append, List.cons.injEq] at h
      obtain ⟨i1, i2⟩ := ih ds (noUpper_tail hc) (noUpper_tail hd) h.2
      exact ⟨by rw [h.1, i1], i2⟩

theorem pascal_words_inj (vs ws : List Str) (hv : ∀ w ∈ vs, LetterWord w) (hw : ∀ w ∈ ws, LetterWord w)
    (h : (vs.map capitalised).flatten = (ws.map capitalised).flatten) : vs = ws := by
  induction vs generalizing ws with
  | nil =>
    cases ws with
    | nil => rfl
    | cons w ws => obtain ⟨c, cs, rfl, _⟩ := hw w (by simp); simp [capitalised] at h
  | cons v vs ih =>
    obtain ⟨c, cs, rfl, hc, _, hcu⟩ := hv v (by simp)
    cases ws with
    | nil => simp [capitalised] at h
    | cons w ws =>
      obtain ⟨d, ds, rfl, hd, _, hdu⟩ := hw w (by simp)
      simp only [List.map_cons, List.flatten_cons, capitalised, List.cons_append, List.cons.injEq] at h
      obtain ⟨i1, i2⟩ := flat_split cs ds vs ws (noUpper_tail hcu) (noUpper_tail hdu) (fun w hw' => hv w (List.mem_cons_of_mem _ hw'))
        (fun w hw' => hw w (List.mem_cons_of_mem _ hw')) h.2
      rw [letter_inj hc hd h.1, i1, ih ws (fun w hw' => hv w (List.mem_cons_of_mem _ hw')) (fun w hw' => hw w (List.mem_cons_of_mem _ hw')) i2]

/-- `PascalCase` and `camelCase` keep names apart whose words all begin with a letter. -/
theorem C55_distinct_letters_partial (r : RenameRule) (hr : r = .pascalCase ∨ r = .camelCase) (vs ws : List Str) (hv0 : vs ≠ []) (hw0 : ws ≠ [])
    (hv : ∀ w ∈ vs, LetterWord w) (hw : ∀ w ∈ ws, LetterWord w) (h : r.apply (joined '_' vs) = r.apply (joined '_' ws)) :
    joined '_' vs = joined '_' ws := by
  have hu : ∀ us : List Str, (∀ w ∈ us, LetterWord w) → ∀ w ∈ us, '_' ∉ w := by
    intro us hus w hw'
    obtain ⟨c, cs, rfl, _, h2, _⟩ := hus w hw'
    exact h2
  have hword : ∀ w, LetterWord w → Word w := by
    rintro w ⟨c, cs, rfl, h1, h2, _⟩
    refine ⟨c, cs, rfl, ?_, h2⟩
    have hall : ∀ c ∈ (ch! "abcdefghijklmnopqrstuvwxyz" : Str), c ∈ (ch! "abcdefghijklmnopqrstuvwxyz0123456789" : Str) := by decide
    exact hall c h1
  have hcam : ∀ us : List Str, us ≠ [] → (∀ w ∈ us, LetterWord w) → r = .camelCase → ∃ w ws', us = w :: ws' ∧ Word w := by
    intro us h0 hus _
    cases us with
    | nil => exact absurd rfl h0
    | cons u us => exact ⟨u, us, rfl, hword u (hus u (by simp))⟩
  rw [C55_rule_as_promised r vs (hu vs hv) (hcam vs hv0 hv), C55_rule_as_promised r ws (hu ws hw) (hcam ws hw0 hw)] at h
  simp only [Res.ok.injEq] at h
  rcases hr with rfl | rfl
  · rw [pascal_words_inj vs ws hv hw h]
  · cases vs with
    | nil => exact absurd rfl hv0
    | cons v vs =>
      cases ws with
      | nil => exact absurd rfl hw0
      | cons w ws =>
        simp only [promised, List.headD_cons, List.tail_cons] at h
        obtain ⟨c, cs, rfl, hc, _, hcu⟩ := hv v (by simp)
        obtain ⟨d, ds, rfl, hd, _, hdu⟩ := hw w (by simp)
        have hv' : ∀ w ∈ vs, LetterWord w := fun w hw' => hv w (List.mem_cons_of_mem _ hw')
        have hw' : ∀ w ∈ ws, LetterWord w := fun w h' => hw w (List.mem_cons_of_mem _ h')
        obtain ⟨i1, i2⟩ := flat_split _ _ vs ws hcu hdu hv' hw' h
        rw [i1, pascal_words_inj vs ws hv' hw' i2]

example : LetterWord (ch! "created") ∧ LetterWord (ch! "at") ∧ NoUpper (ch! "created_at") := by
  refine ⟨⟨'c', ch! "reated", rfl, by decide, by decide, ?_⟩, ⟨'a', ch! "t", rfl, by decide, by decide, ?_⟩, ?_⟩ <;>
  · unfold NoUpper; decide

/-- But not all snake_case names: a word that begins with a digit is lost. -/
theorem C55_pascal_collision : RenameRule.pascalCase.apply (ch! "a_1") = RenameRule.pascalCase.apply (ch! "a1") ∧
    RenameRule.camelCase.apply (ch! "a_1") = RenameRule.camelCase.apply (ch! "a1") ∧ ch! "a_1" ≠ ch! "a1" := ⟨rfl, rfl, by decide⟩

/-- `camelCase` stops the compiler with a panic on exactly these names: nothing but underscores, or the first
character other than an underscore is not ASCII. -/
theorem C55_camel_panics (s : Str) : RenameRule.camelCase.apply s = .panic ↔ ∀ c rest, s.dropWhile (· == '_') = c :: rest → 128 ≤ c.toNat := by
  induction s with
  | nil => simp [RenameRule.apply, pascalLoop]
  | cons c s ih =>
    by_cases hc : c = '_'
    · subst hc
      have e : RenameRule.camelCase.apply ('_' :: s) = RenameRule.camelCase.apply s := by simp [RenameRule.apply, pascalLoop]
      rw [e, ih]
      simp [List.dropWhile_cons]
    · have hd : (c :: s).dropWhile (· == '_') = c :: s := by simp [List.dropWhile_cons, hc]
      rw [hd]
      have hup : (asciiUpper c).toNat < 128 ↔ c.toNat < 128 := by
        unfold asciiUpper
        by_cases hr : 97 ≤ c.toNat ∧ c.toNat ≤ 122
        · rw [if_pos hr]
          have hall : ∀ n, n < 26 → (Char.ofNat (97 + n - 32)).toNat < 128 := by decide
          have := hall (c.toNat - 97) (by omega)
          have e : 97 + (c.toNat - 97) = c.toNat := by omega
          rw [e] at this
          exact ⟨fun _ => by omega, fun _ => this⟩
        · rw [if_neg hr]
      simp only [RenameRule.apply, pascalLoop, if_neg hc, if_true]
      by_cases hl : c.toNat < 128
      · rw [if_pos (hup.mpr hl)]
        constructor
        · intro h; cases h
        · intro h; have := h c s rfl; omega
      · rw [if_neg (fun h => hl (hup.mp h))]
        refine ⟨fun _ d rest h => ?_, fun _ => rfl⟩
        simp only [List.cons.injEq] at h
        rw [← h.1]; omega

example : RenameRule.camelCase.apply (ch! "__") = .panic := rfl

/-- The documented rule names are exactly the ones accepted, each for its own rule. -/
theorem C55_rule_names (s : Str) (r : RenameRule) : RenameRule.fromStr s = some r ↔
    (s, r) ∈ [(ch! "lowercase", RenameRule.lowerCase), (ch! "UPPERCASE", .upperCase), (ch! "PascalCase", .pascalCase), (ch! "camelCase", .camelCase),
      (ch! "snake_case", .snakeCase), (ch! "SCREAMING_SNAKE_CASE", .screamingSnakeCase), (ch! "kebab-case", .kebabCase),
      (ch! "SCREAMING-KEBAB-CASE", .screamingKebabCase)] := by
  have gen : ∀ l : List (Str × RenameRule), (l.map Prod.fst).Nodup → ((l.find? (fun e => s == e.1)).map Prod.snd = some r ↔ (s, r) ∈ l) := by
    intro l
    induction l with
    | nil => simp
    | cons e l ih =>
      intro hn
      simp only [List.map_cons, List.nodup_cons] at hn
      obtain ⟨k, v⟩ := e
      by_cases hk : s = k
      · subst hk
        simp only [List.find?_cons, beq_self_eq_true, Option.map_some, Option.some.injEq, List.mem_cons, Prod.mk.injEq, true_and]
        constructor
        · intro h; exact .inl h.symm
        · rintro (h | h)
          · exact h.symm
          · exact absurd (List.mem_map.mpr ⟨_, h, rfl⟩) hn.1
      · have : (s == k) = false := by simpa using hk
        simp only [List.find?_cons, this, ih hn.2, List.mem_cons, Prod.mk.injEq, hk, false_and, false_or]
  exact gen renameRules (by decide)

/-- An explicit name is used as it is, whatever the rule; otherwise the rule is applied to the identifier, without the
`r#` of a raw identifier. -/
theorem C55_explicit_name (rule : RenameRule) (n ident : Str) : columnName rule (some n) ident = .ok n ∧
    columnName rule none ('r' :: '#' :: ident) = columnName rule none ident := ⟨rfl, rfl⟩

example : columnName .upperCase none (ch! "r#type") = .ok (ch! "TYPE") := rfl

end Klick
