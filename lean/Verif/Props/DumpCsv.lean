import Verif.Proofs.DumpNames
import Verif.Proofs.MergeInput
import Verif.Props.Numbers
import Verif.Props.DiffOwn

/-!
C67, C68: gdxdump writes CSV that is read back as the content of the symbol.
-/

namespace Gdx.Props
open Gdx Gdx.Dump Gdx.DblStr Gdx.Diff

/-! ## texts of values -/

/-- the text of a number that is neither special nor an acronym: decimal and nearest, or hexadecimal and exact -/
def NumText (o : Dump.Opt) (v : Dbl) (t : Str) : Prop :=
  ∃ q, v.fv = .fin q ∧ match o.dfmt with
    | .normal => if q = 0 then t = [48] else ∃ p, |p - q| ≤ 5 / 10 ^ 15 * |p| ∧ (decVal 46 t = some p ∨ decVal o.sep t = some p)
    | .hexBytes => hexBits t = some v.toNat
    | .hexponential => hexpVal t = some q

/-- the text for a special value: what the user wants, otherwise `Undf`, `NA`, `+Inf`, `-Inf`, `Eps` -/
def specialWord (o : Dump.Opt) (k : Nat) : Str :=
  if k = 0 then o.und.getD [85, 110, 100, 102]
  else if k = 1 then o.na.getD [78, 65]
  else if k = 2 then o.pin.getD [43, 73, 110, 102]
  else if k = 3 then o.min.getD [45, 73, 110, 102]
  else o.eps.getD [69, 112, 115]

/-- the texts of the user for special values -/
def UserWord (o : Dump.Opt) (t : Str) : Prop := o.und = some t ∨ o.na = some t ∨ o.pin = some t ∨ o.min = some t ∨ o.eps = some t

theorem specialWord_eq (o : Dump.Opt) (k : Nat) : specialWord o k = (svOpt o k).getD (svStr k) := by
  unfold specialWord
  match k with
  | 0 => rfl
  | 1 => rfl
  | 2 => rfl
  | 3 => rfl
  | k + 4 => rfl

theorem UserWord.of {o : Dump.Opt} {k : Nat} {t : Str} (h : svOpt o k = some t) : UserWord o t := by
  unfold svOpt at h
  unfold UserWord
  split at h <;> simp [h]

/-- The text that stands for a value: the name of the acronym; the name of the special value, or what the user wants instead; what the user wants for
    zero; the number. -/
def ValueText (o : Dump.Opt) (a : Gx) (v : Dbl) (t : Str) : Prop :=
  acronymName a v = .ok (true, t) ∨
  acronymName a v = .ok (false, []) ∧
    if mapValue a.sv v = 5 then (v.fv = .fin 0 ∧ o.zero = some t) ∨ (¬ (v.fv = .fin 0 ∧ o.zero.isSome = true) ∧ NumText o v t)
    else t = specialWord o (mapValue a.sv v)

/-- the options: a delimiter that gdxdump knows, no decimal comma beside a comma as delimiter (gdxdump refuses this), no delimiters, quotes or
    newlines in the texts for special values; no header of the user -/
structure OptOk (o : Dump.Opt) : Prop where
  delim : o.delim = 44 ∨ o.delim = 59 ∨ o.delim = 32 ∨ o.delim = 9
  sep : o.sep = 46 ∨ o.sep = 44 ∧ o.delim ≠ 44
  sv : ∀ t, UserWord o t → Bare o.delim t
  zero : ∀ t, o.zero = some t → Bare o.delim t
  header : o.header = none

/-- a value gdxdump can write: no infinity or NaN (C66) unless it is special, the name of an acronym has no delimiter, quote or newline; `dtoa` gives the
    nearest digits -/
structure ValOk (o : Dump.Opt) (a : Gx) (v : Dbl) : Prop where
  acr : ∃ b s, acronymName a v = .ok (b, s) ∧ if b then Bare o.delim s else s = []
  fin : mapValue a.sv v = 5 → ∃ q, v.fv = .fin q ∧ (q ≠ 0 → Nearest15 (o.dtoa v) q)

theorem OptOk.no34 {o : Dump.Opt} (h : OptOk o) : o.delim ≠ 34 := by
  rcases h.delim with h | h | h | h <;> rw [h] <;> decide

theorem OptOk.no10 {o : Dump.Opt} (h : OptOk o) : o.delim ≠ 10 := by
  rcases h.delim with h | h | h | h <;> rw [h] <;> decide

/-- letters, digits, signs and the point -/
def Safe (c : UInt8) : Prop := c = 43 ∨ c = 45 ∨ c = 46 ∨ (48 ≤ c ∧ c ≤ 57) ∨ 65 ≤ c

theorem safe_ne {c d : UInt8} (h : Safe c) (hd : d = 44 ∨ d = 59 ∨ d = 32 ∨ d = 9 ∨ d = 34 ∨ d = 10) : c ≠ d := by
  rintro rfl
  unfold Safe at h
  rcases hd with rfl | rfl | rfl | rfl | rfl | rfl <;> revert h <;> decide

theorem OptOk.bare {o : Dump.Opt} (h : OptOk o) {t : Str} (ht : ∀ c ∈ t, Safe c) : Bare o.delim t := by
  intro c hc
  have hs := ht c hc
  refine ⟨safe_ne hs ?_, safe_ne hs (by simp), fun hq => safe_ne hs (d := 34) (by simp) hq.1⟩
  rcases h.delim with h | h | h | h <;> simp [h]

theorem safe_dig {c : UInt8} (h : isDig c = true) : Safe c := by
  unfold isDig at h
  simp only [Bool.and_eq_true, decide_eq_true_eq] at h
  exact Or.inr (Or.inr (Or.inr (Or.inl h)))

theorem safe_hex : ∀ d < 16, Safe (hexDigit d) := by unfold Safe; decide

theorem hexBytes_safe (v : Dbl) : ∀ c ∈ hexBytes v, Safe c := by
  intro c hc
  rw [hexBytes_eq] at hc
  rcases List.mem_cons.mp hc with rfl | hc
  · unfold Safe; decide
  · rcases List.mem_cons.mp hc with rfl | hc
    · unfold Safe; decide
    · obtain ⟨d, hd, rfl⟩ := List.mem_map.mp hc
      exact safe_hex d ((hexList_ok 16 v.toNat).1 d hd)

theorem mDigits_safe : ∀ f m sh, ∀ c ∈ mDigits f m sh, Safe c
  | 0, _, _, c, hc => by cases hc
  | f + 1, m, sh, c, hc => by
    unfold mDigits at hc
    split at hc
    · cases hc
    · rcases List.mem_cons.mp hc with rfl | hc
      · exact safe_hex _ (Nat.mod_lt _ (by decide))
      · exact mDigits_safe f _ _ c hc

theorem decDigits_safe : ∀ f n, ∀ c ∈ decDigits f n, Safe c
  | 0, _, c, hc => by cases hc
  | f + 1, n, c, hc => by
    unfold decDigits at hc
    split at hc
    · rename_i h
      rw [List.mem_singleton.mp hc]
      exact safe_dig (digit_isDig h)
    · rcases List.mem_append.mp hc with hc | hc
      · exact decDigits_safe f _ c hc
      · rw [List.mem_singleton.mp hc]
        exact safe_dig (digit_isDig (Nat.mod_lt _ (by decide)))

theorem hexponential_safe (v : Dbl) : ∀ c ∈ hexponential v, Safe c := by
  have hm : ∀ m, ∀ c ∈ mFormat m, Safe c := by
    intro m c hc
    unfold mFormat at hc
    split at hc
    · rw [List.mem_singleton.mp hc]; unfold Safe; decide
    · exact mDigits_safe _ _ _ c hc
  have hi : ∀ n, ∀ c ∈ DblStr.intToStr n, Safe c := by
    intro n c hc
    unfold DblStr.intToStr at hc
    split at hc
    · rcases List.mem_cons.mp hc with rfl | hc
      · unfold Safe; decide
      · exact decDigits_safe _ _ c hc
    · exact decDigits_safe _ _ c hc
  have hl : ∀ l : Str, (∀ c ∈ l, c = 43 ∨ c = 45 ∨ c = 46 ∨ (48 ≤ c ∧ c ≤ 57) ∨ 65 ≤ c) → ∀ c ∈ l, Safe c := fun _ h => h
  have ha : ∀ {l m : Str}, (∀ c ∈ l, Safe c) → (∀ c ∈ m, Safe c) → ∀ c ∈ l ++ m, Safe c := by
    intro l m h1 h2 c hc
    exact (List.mem_append.mp hc).elim (h1 c) (h2 c)
  have hs : ∀ c ∈ (if v.isNeg then [45] else [] : Str), Safe c := by
    split
    · exact hl _ (by decide)
    · exact hl _ (by decide)
  unfold hexponential
  dsimp only
  split
  · split
    · exact ha hs (hl _ (by decide))
    · exact ha (ha (ha hs (hl _ (by decide))) (hm _)) (hl _ (by decide))
  · split
    · exact ha (ha (ha (ha hs (hl _ (by decide))) (hm _)) (hl _ (by decide))) (hi _)
    · split
      · exact ha hs (hl _ (by decide))
      · exact hl _ (by decide)

theorem svStr_safe (k : Nat) : ∀ c ∈ svStr k, Safe c := by
  unfold svStr Safe
  split <;> decide

/-- The text of a number. -/
theorem num_text {o : Dump.Opt} (ho : OptOk o) {v : Dbl} {q : ℚ} (hv : v.fv = .fin q) (hd : q ≠ 0 → Nearest15 (o.dtoa v) q) :
    ∃ t, numStr o v = .ok t ∧ Bare o.delim t ∧ NumText o v t := by
  unfold numStr NumText
  cases hf : o.dfmt with
  | hexBytes => exact ⟨_, rfl, ho.bare (hexBytes_safe v), q, hv, (C66_hexBytes v).1⟩
  | hexponential => exact ⟨_, rfl, ho.bare (hexponential_safe v), q, hv, (C66_hexponential hv).1⟩
  | normal =>
    by_cases h0 : q = 0
    · subst h0
      exact ⟨[48], if_pos hv, ho.bare (by intro c hc; rw [List.mem_singleton.mp hc]; unfold Safe; decide), 0, hv, by dsimp only; rw [if_pos rfl]⟩
    · have hn := hd h0
      obtain ⟨t0, p, d1, _, d3, d4, _⟩ := C66_decimal hv h0 hn
      have hdot : ∀ {t : Str}, (∀ c ∈ t, isDig c = true ∨ c = 46 ∨ c = 45 ∨ c = 69) → Bare o.delim t := by
        intro t ht
        refine ho.bare fun c hc => ?_
        rcases ht c hc with h | rfl | rfl | rfl
        · exact safe_dig h
        all_goals unfold Safe; decide
      cases hp : plain v with
      | false =>
        obtain ⟨t, t1, t2, t3⟩ := C66_comma_ignored o.sep hv h0 hn hp
        exact ⟨t, t1, hdot t3, q, hv, by dsimp only; rw [if_neg h0]; exact ⟨p, d4, Or.inl (by rw [t2, d3])⟩⟩
      | true =>
        rcases ho.sep with hs | ⟨hs, hc⟩
        · rename_i dd
          obtain ⟨t, p', t1, t2, t3, _, t5⟩ := C66_decimal hv h0 hn
          rw [hs]
          exact ⟨t, t1, hdot t5, q, hv, by dsimp only; rw [if_neg h0]; exact ⟨p, d4, Or.inl (by rw [t2, d3, t3])⟩⟩
        · obtain ⟨L, hL1, hL2, hpl⟩ := plain_iff hv
          obtain ⟨g1, g2⟩ := hpl.mp hp
          obtain ⟨hlo, hhi⟩ := plain_range hn (by linarith) g2
          obtain ⟨t, t1, t2, t3⟩ := text_plain (sep := 44) hn.ok (expo_of_fin hv) (by rw [hv]; intro hh; cases hh; exact h0 rfl) hp hlo hhi (Or.inr rfl)
          rw [hs]
          refine ⟨t, t1, ?_, q, hv, by dsimp only; rw [if_neg h0]; exact ⟨p, d4, Or.inr (by rw [t2, d3])⟩⟩
          intro c hcm
          have h3 := t3 c hcm
          by_cases h44 : c = 44
          · subst h44
            exact ⟨Ne.symm hc, by decide, fun hh => absurd hh.1 (by decide)⟩
          · have hs : Safe c := by
              rcases h3 with h | rfl | rfl
              · exact safe_dig h
              · exact absurd rfl h44
              · unfold Safe; decide
            exact ho.bare (t := [c]) (by intro x hx; rw [List.mem_singleton.mp hx]; exact hs) c (by simp)

/-- WrVal writes the text of the value, without delimiter, quote and newline. -/
theorem val_text {o : Dump.Opt} (ho : OptOk o) {a : Gx} {v : Dbl} (hv : ValOk o a v) : ∃ t, Texts o a v t ∧ ValueText o a v t := by
  obtain ⟨⟨b, s, h1, h2⟩, h3⟩ := hv
  unfold Texts Dump.wrVal ValueText
  rw [h1]
  simp only [Res.bind_ok]
  cases b with
  | true => exact ⟨s, ⟨rfl, h2⟩, Or.inl rfl⟩
  | false =>
    have hs : s = [] := h2
    subst hs
    simp only [Bool.false_eq_true, if_false]
    by_cases h5 : mapValue a.sv v = 5
    · obtain ⟨q, hq, hn⟩ := h3 h5
      obtain ⟨t, t1, t2, t3⟩ := num_text ho hq hn
      simp only [if_neg (show ¬ (mapValue a.sv v ≠ 5) by simp [h5]), if_pos h5]
      cases hz : o.zero with
      | none => exact ⟨t, ⟨t1, t2⟩, Or.inr ⟨trivial, Or.inr ⟨by simp, t3⟩⟩⟩
      | some w =>
        dsimp only
        by_cases h0 : v.fv = .fin 0
        · rw [if_pos h0]
          exact ⟨w, ⟨rfl, ho.zero w hz⟩, Or.inr ⟨trivial, Or.inl ⟨h0, rfl⟩⟩⟩
        · rw [if_neg h0]
          exact ⟨t, ⟨t1, t2⟩, Or.inr ⟨trivial, Or.inr ⟨fun h => h0 h.1, t3⟩⟩⟩
    · simp only [if_pos (show mapValue a.sv v ≠ 5 from h5), if_neg h5]
      refine ⟨_, ⟨rfl, ?_⟩, Or.inr ⟨trivial, (specialWord_eq _ _).symm⟩⟩
      cases hk : svOpt o (mapValue a.sv v) with
      | none => exact ho.bare (svStr_safe _)
      | some w => exact ho.sv w (.of hk)

/-! ## header -/

/-- the names of the columns with values -/
def valueNames (o : Dump.Opt) (typ : Nat) : List Str :=
  if typ ≠ dtSet ∧ typ ≠ dtAlias then sVal :: (if (typ = dtVar ∨ typ = dtEqu) ∧ o.allFields = true then sFields else [])
  else if o.setText = true then [sText] else []

theorem valueNames_printable (o : Dump.Opt) (typ : Nat) : ∀ s ∈ valueNames o typ, Printable s := by
  have h : ∀ s ∈ sVal :: sText :: sFields, Printable s := by
    unfold Printable
    decide
  unfold valueNames
  intro s hs
  refine h s ?_
  split at hs
  · rcases List.mem_cons.mp hs with rfl | hs
    · simp
    · split at hs
      · simp [hs]
      · cases hs
  · split at hs
    · rw [List.mem_singleton.mp hs]; simp
    · cases hs

theorem quoted_fields {d : UInt8} {ss : List Str} (h : ∀ s ∈ ss, Printable s) : List.Forall₂ (IsField d) (ss.map (qqcsv d)) ss := by
  induction ss with
  | nil => exact .nil
  | cons s ss ih => exact .cons (field_of (h s (by simp))) (ih fun x hx => h x (by simp [hx]))

theorem head_line {o : Dump.Opt} (ho : OptOk o) {dim typ : Nat} {names : List Str} (hs : o.showHdr = true) (hn : names.length = dim) (hp : ∀ s ∈ names, Printable s)
    (h0 : dim = 0 → typ ≠ dtSet ∧ typ ≠ dtAlias) : IsLine o.delim (csvHead o dim typ names) (names ++ valueNames o typ) := by
  have hall : ∀ s ∈ names ++ valueNames o typ, Printable s := fun s hs => (List.mem_append.mp hs).elim (hp s) (valueNames_printable o typ s)
  have hne : (names ++ valueNames o typ).map (qqcsv o.delim) ≠ [] := by
    intro hc
    rw [List.map_eq_nil_iff, List.append_eq_nil_iff] at hc
    obtain ⟨c1, c2⟩ := hc
    rw [c1] at hn
    have := h0 hn.symm
    unfold valueNames at c2
    rw [if_pos this] at c2
    cases c2
  have hl := line_of ho.no34 ho.no10 (quoted_fields (d := o.delim) hall) hne
  have he : csvHead o dim typ names = joined o.delim ((names ++ valueNames o typ).map (qqcsv o.delim)) ++ [10] := by
    unfold csvHead valueNames
    rw [ho.header]
    simp only [if_pos hs]
    cases names with
    | nil =>
      have hd : dim = 0 := hn.symm
      have ht := h0 hd
      rw [if_pos ht, if_pos hd, if_pos ht]
      split
      · simp [joined, sFields]
      · simp [joined]
    | cons s ss =>
      have hd : dim ≠ 0 := by rw [← hn]; simp
      rw [List.map_append, List.map_cons, joined_cons, List.cons_append (as := List.map _ ss), joined_cons]
      by_cases ht : typ ≠ dtSet ∧ typ ≠ dtAlias
      · rw [if_pos ht, if_neg hd, if_pos ht]
        split <;> simp [Function.comp_def]
      · have hv : ¬ ((typ = dtVar ∨ typ = dtEqu) ∧ o.allFields = true) := by
          rintro ⟨hv, _⟩
          apply ht
          rcases hv with rfl | rfl <;> decide
        rw [if_neg ht, if_neg ht, if_neg hv]
        split <;> simp
  rw [he]
  exact hl

/-! ## the whole text -/

theorem label_of {a : Gx} (ha : Fresh a) {e : Int} (he : 1 ≤ e ∧ e ≤ (systemInfo a).2) : ∃ s, LabelIs a e s := by
  obtain ⟨strs, hu⟩ := ha.uel
  rw [size_strs, hu] at he
  have hlen : e ≤ (strs.length : Int) := by simpa [Uel.strs] using he.2
  have hlt : (e - 1).toNat < strs.length := by omega
  refine ⟨strs[(e - 1).toNat], _, (e - 1).toNat, -1, hu, by omega, ?_, ?_⟩
  · simp
  · have hg := ((ha.good _ hu).good (strs[(e - 1).toNat]) (by simp [Uel.strs])).1
    unfold goodUEL at hg
    simp only [Bool.and_eq_true, decide_eq_true_eq] at hg
    refine ⟨⟨?_, by omega⟩, hg.1⟩
    have key : ∀ (s : Str) (x y : Bool), canBeQuotedLoop x y s = true → ∀ c ∈ s, 32 ≤ c.toNat := by
      intro s
      induction s with
      | nil => intro _ _ _ c hc; cases hc
      | cons b s ih =>
        intro x y h c hc
        unfold canBeQuotedLoop at h
        rcases List.mem_cons.mp hc with rfl | hc
        · split at h
          · rename_i h1; rw [h1]; decide
          · split at h
            · rename_i h1; rw [h1]; decide
            · split at h
              · cases h
              · rename_i h1
                exact Nat.le_of_not_lt fun h => h1 (UInt8.lt_iff_toNat_lt.mpr h)
        · split at h
          · split at h
            · cases h
            · exact ih _ _ h c hc
          · split at h
            · split at h
              · cases h
              · exact ih _ _ h c hc
            · split at h
              · cases h
              · exact ih _ _ h c hc
    exact key _ _ _ hg.2

/-- The fields that must stand in the line of a record: the labels of its elements; for parameters, variables and equations the value or values; for sets, if
    wanted, the explanatory text. -/
def RowOf (o : Dump.Opt) (a : Gx) (typ : Nat) (r : RecOut Int) (xs : List Str) : Prop :=
  ∃ ls ts, xs = ls ++ ts ∧ List.Forall₂ (LabelIs a) r.key ls ∧
    if typ ≠ dtSet ∧ typ ≠ dtAlias then List.Forall₂ (ValueText o a) (shown o typ r.vals) ts
    else if o.setText = true then ∃ t, ts = [t] ∧ SetText a r.vals t else ts = []

/-- what gdxdump needs of a record -/
structure CanDump (o : Dump.Opt) (a : Gx) (typ : Nat) (r : RecOut Int) : Prop where
  vals : typ ≠ dtSet → typ ≠ dtAlias → ∀ v ∈ shown o typ r.vals, ValOk o a v
  text : ¬ (typ ≠ dtSet ∧ typ ≠ dtAlias) → o.setText = true → ∃ t, SetText a r.vals t

theorem forall₂_of {α β : Type} {R : α → β → Prop} {l : List α} (h : ∀ x ∈ l, ∃ y, R x y) : ∃ m, List.Forall₂ R l m := by
  induction l with
  | nil => exact ⟨[], .nil⟩
  | cons x l ih =>
    obtain ⟨y, hy⟩ := h x (by simp)
    obtain ⟨m, hm⟩ := ih fun z hz => h z (by simp [hz])
    exact ⟨y :: m, .cons hy hm⟩

theorem row_of {o : Dump.Opt} (ho : OptOk o) {a : Gx} (ha : Fresh a) {typ : Nat} {r : RecOut Int} (hk : InFile a r.key) (hr : CanDump o a typ r)
    (hn : if (typ = dtVar ∨ typ = dtEqu) ∧ o.allFields = true then 5 ≤ r.vals.length else 1 ≤ r.vals.length) : ∃ xs, RowIs o a typ r xs ∧ RowOf o a typ r xs := by
  obtain ⟨ls, hls⟩ := forall₂_of (R := LabelIs a) (l := r.key) fun e he => label_of ha (hk e he)
  by_cases ht : typ ≠ dtSet ∧ typ ≠ dtAlias
  · obtain ⟨ts, hts⟩ := forall₂_of (R := fun v t => Texts o a v t ∧ ValueText o a v t) (l := shown o typ r.vals) fun v hv => val_text ho (hr.vals ht.1 ht.2 v hv)
    exact ⟨ls ++ ts, ⟨ls, ts, rfl, hls, by rw [if_pos ht]; exact ⟨hn, hts.imp fun _ _ h => h.1⟩⟩, ⟨ls, ts, rfl, hls, by rw [if_pos ht]; exact hts.imp fun _ _ h => h.2⟩⟩
  · by_cases hs : o.setText = true
    · obtain ⟨t, h⟩ := hr.text ht hs
      exact ⟨ls ++ [t], ⟨ls, [t], rfl, hls, by rw [if_neg ht, if_pos hs]; exact ⟨t, rfl, h⟩⟩, ⟨ls, [t], rfl, hls, by rw [if_neg ht, if_pos hs]; exact ⟨t, rfl, h⟩⟩⟩
    · exact ⟨ls ++ [], ⟨ls, [], rfl, hls, by rw [if_neg ht, if_neg hs]⟩, ⟨ls, [], rfl, hls, by rw [if_neg ht, if_neg hs]⟩⟩

/-- the number of values of a record -/
theorem vals_length {z : Cz} {a : Gx} {nr : Int} {d : SymDesc} {xs : List RawEntry} (h : HoldsSym z a nr d xs) {outs : List (RecOut Int)}
    (hd : Delivered a.rsv (acrOf a) d xs outs) : (∀ r ∈ outs, r.vals.length = dataTypSize d.typ ∧ r.key.length = d.dim.toNat ∧ InFile a r.key) ∧ outs.length = xs.length := by
  unfold Delivered at hd
  rw [if_neg (by
    rintro ⟨c1, c2⟩
    have := h.one c1
    rw [c2] at this
    cases this)] at hd
  refine ⟨fun r hr => ?_, hd.recs.length_eq.symm⟩
  obtain ⟨x, hx, hxo⟩ := forall₂_mem hd.recs r hr
  obtain ⟨m', ld, _⟩ := h.sym
  obtain ⟨sy, d1, _, d3⟩ := ld.data
  obtain ⟨lo, hi, hst⟩ := d3.data
  obtain ⟨bytes, tl, _, _, nr, bs, out, _, _, _, _, he⟩ := hst.data
  have := (he.fits (stored x.sv x.key x.vals) (List.mem_map_of_mem hx)).2.2.1
  rw [d1.typ] at this
  refine ⟨?_, hd.len r hr, by rw [hxo.key]; exact h.els x hx⟩
  rw [← hxo.vals.length_eq]
  simpa [stored] using this

/-- the names of the domains can be asked for; they are printable and not too long -/
structure DomsOk (a : Gx) (nr : Int) (ds : List Str) : Prop where
  get : ∃ c, symbolGetDomainX a nr = .ok (a, (c, ds))
  len : ds.length = (symbolInfo a nr).dim.toNat
  print : ∀ s ∈ ds, (∀ c ∈ s, 32 ≤ c.toNat) ∧ s.length ≤ 200

theorem names_printable {ds names : List Str} (hp : ∀ s ∈ ds, (∀ c ∈ s, 32 ≤ c.toNat) ∧ s.length ≤ 200) (h : NamesOf ds names) : ∀ s ∈ names, Printable s := by
  have hi : ∀ n : Nat, (∀ c ∈ intToStr (n : Int), 32 ≤ c.toNat) ∧ (intToStr (n : Int)).length ≤ 21 := by
    intro n
    refine ⟨fun c hc => ?_, intToStr_length _⟩
    rw [Merge.intToStr_nat] at hc
    have := UInt8.le_iff_toNat_le.mp (Merge.digits_of 20 n c hc).1
    have h48 : (48 : UInt8).toNat = 48 := rfl
    omega
  intro t ht
  obtain ⟨i, hi'⟩ := List.getElem?_of_mem ht
  have hlt := (List.getElem?_eq_some_iff.mp hi').1
  rw [h.len] at hlt
  have hs := List.getElem?_eq_getElem hlt
  have hm := h.made i _ t hs hi'
  have hb : (∀ c ∈ baseOf i ds[i], 32 ≤ c.toNat) ∧ (baseOf i ds[i]).length ≤ 200 := by
    unfold baseOf
    split
    · have := hi (i + 1)
      push_cast at this
      refine ⟨?_, by simp; omega⟩
      intro c hc
      rcases List.mem_append.mp hc with hc | hc
      · have : ∀ c ∈ ([68, 105, 109] : Str), 32 ≤ c.toNat := by decide
        exact this c hc
      · exact this.1 c hc
    · exact hp _ (List.getElem_mem _)
  rcases hm with rfl | ⟨k, _, rfl⟩
  · exact ⟨hb.1, by omega⟩
  · refine ⟨?_, ?_⟩
    · intro c hc
      rcases List.mem_append.mp hc with hc | hc
      · rcases List.mem_append.mp hc with hc | hc
        · exact hb.1 c hc
        · rw [List.mem_singleton.mp hc]; decide
      · exact (hi k).1 c hc
    · have := (hi k).2
      simp only [List.length_append, List.length_cons, List.length_nil]
      omega

/-- C67: the text gdxdump writes for a symbol is, for a reader of CSV, the header (names of the columns, C68) and one line for every record, in the order of the
    file: the labels of its elements and its values. What is missing: the columns of CDim (C69), the header of the user. -/
theorem C67_csv {o : Dump.Opt} (ho : OptOk o) {z : Cz} (hz : z.Good) {a : Gx} (ha : Fresh a) {nr : Int} {d : SymDesc} {xs : List RawEntry} (h : HoldsSym z a nr d xs)
    (ht : symTyp (symbolInfo a nr).typ = d.typ) (ht3 : d.typ ≤ 3) {ds : List Str} (hd : DomsOk a nr ds) (hc : ¬ (o.cdim = true ∧ 2 ≤ d.dim)) (h0 : d.dim = 0 → d.typ ≠ dtSet)
    (hr : ∀ outs, Delivered a.rsv (acrOf a) d xs outs → ∀ r ∈ outs, CanDump o a (symbolInfo a nr).typ r) {fuel : Nat} (hf : xs.length < fuel) :
    ∃ outs names rows g' text, Delivered a.rsv (acrOf a) d xs outs ∧ NamesOf ds names ∧ writeCSV o z fuel a nr = .ok (g', text) ∧
      csvRead o.delim text = some ((if o.showHdr = true then [names ++ valueNames o (symbolInfo a nr).typ] else []) ++ rows) ∧
      List.Forall₂ (RowOf o a (symbolInfo a nr).typ) outs rows := by
  obtain ⟨m, ld, tg⟩ := h.sym
  obtain ⟨outs, o1, ⟨g1, g2, s1, s2, _, _⟩, _⟩ := ld.reads hz tg
  obtain ⟨hall, hlen⟩ := vals_length h o1
  obtain ⟨c, hget⟩ := hd.get
  have hdim : (symbolInfo a nr).dim.toNat = d.dim.toNat := by rw [h.info]
  have hds : ds.length ≤ 20 := by
    rw [hd.len, hdim]
    have := h.dim
    omega
  obtain ⟨names, n1, n2, _⟩ := domNames_spec ds [] [] 1 ⟨rfl, (fun i s t hh => by cases hh), (fun i j s t _ hh => by cases hh)⟩ (by simpa using hds) (by simp)
  rw [List.nil_append] at n2
  have hz0 : (symbolInfo a nr).dim.toNat = 0 → (symbolInfo a nr).typ ≠ dtSet ∧ (symbolInfo a nr).typ ≠ dtAlias := by
    intro hh
    rw [hdim] at hh
    have := h0 (by have := h.dim; omega)
    rw [← ht] at this
    unfold symTyp at this
    split at this
    · exact absurd rfl this
    · rename_i hna
      exact ⟨this, hna⟩
  have hsize : ∀ r ∈ outs, if ((symbolInfo a nr).typ = dtVar ∨ (symbolInfo a nr).typ = dtEqu) ∧ o.allFields = true then 5 ≤ r.vals.length else 1 ≤ r.vals.length := by
    intro r hr
    rw [(hall r hr).1, ← ht]
    have h3 : symTyp (symbolInfo a nr).typ ≤ 3 := by rw [ht]; exact ht3
    generalize (symbolInfo a nr).typ = q at h3
    split
    · rename_i hq
      rcases hq.1 with rfl | rfl <;> decide
    · unfold symTyp at h3 ⊢
      split
      · decide
      · rename_i hq
        rw [if_neg hq] at h3
        interval_cases q <;> decide
  obtain ⟨rows, hrows⟩ := forall₂_of (R := fun r x => RowIs o a (symbolInfo a nr).typ r x ∧ RowOf o a (symbolInfo a nr).typ r x) (l := outs) fun r hr' =>
    row_of ho ha (hall r hr').2.2 (hr outs o1 r hr') (hsize r hr')
  obtain ⟨f1, f2⟩ := dataReadRawStart_fix ha.auto ha.nrm s1
  obtain ⟨ts, t1, t2⟩ := csvRows_ok (o := o) (g0 := a) (dim := (symbolInfo a nr).dim.toNat) (typ := (symbolInfo a nr).typ) ho.no34 ho.no10 hz0 (f := fuel) s2 f1
    (by rw [RFix.auto f1]; exact ha.auto) ((congrArg Fixed.nrm f1).trans ha.nrm) (fun r hr' => by rw [hdim]; exact (hall r hr').2.1) (hrows.imp fun _ _ h => h.1) (by omega)
  refine ⟨outs, names, rows, g2, csvHead o (symbolInfo a nr).dim.toNat (symbolInfo a nr).typ names ++ ts.flatten, o1, n2, ?_, ?_, hrows.imp fun _ _ h => h.2⟩
  · unfold writeCSV
    dsimp only
    have hcd : ¬ (o.cdim = true ∧ 2 ≤ (symbolInfo a nr).dim.toNat) := by
      rintro ⟨c1, c2⟩
      exact hc ⟨c1, by omega⟩
    rw [hget, Res.bind_ok]
    have n1' : domNames [] 1 ds = .ok names := n1
    simp only [n1', Res.bind_ok, if_neg hcd, s1, t1, Res.pure_eq]
    simp [badLine]
  · by_cases hs : o.showHdr = true
    · rw [if_pos hs]
      have hl := head_line ho (dim := (symbolInfo a nr).dim.toNat) (typ := (symbolInfo a nr).typ) hs (n2.len.trans hd.len) (names_printable hd.print n2) hz0
      have := csvRead_lines (.cons hl t2)
      simpa using this
    · rw [if_neg hs]
      have he : csvHead o (symbolInfo a nr).dim.toNat (symbolInfo a nr).typ names = [] := by
        unfold csvHead
        rw [ho.header]
        simp only [if_neg hs]
      rw [he, List.nil_append, List.nil_append]
      exact csvRead_lines t2

/-! ## files of the library -/

theorem ident_print {s : Str} (h : isGoodIdent s = true) : (∀ c ∈ s, 32 ≤ c.toNat) ∧ s.length ≤ 200 := by
  have hl : ∀ c : UInt8, isIdentChar c = true → 32 ≤ c.toNat := by
    intro c hc
    unfold isIdentChar isLetter at hc
    simp only [Bool.or_eq_true, Bool.and_eq_true, decide_eq_true_eq, beq_iff_eq, UInt8.le_iff_toNat_le] at hc
    have h1 : (65 : UInt8).toNat = 65 := rfl
    have h2 : (97 : UInt8).toNat = 97 := rfl
    have h3 : (48 : UInt8).toNat = 48 := rfl
    rcases hc with ((h | h) | h) | rfl
    · omega
    · omega
    · omega
    · decide
  refine ⟨?_, by have := (isGoodIdent_zfree h).2; omega⟩
  cases s with
  | nil => cases h
  | cons c cs =>
    rw [isGoodIdent, Bool.and_eq_true, Bool.and_eq_true] at h
    intro d hd
    rcases List.mem_cons.mp hd with rfl | hd
    · exact hl _ (by unfold isIdentChar; rw [h.1.1]; rfl)
    · exact hl _ (List.all_eq_true.mp h.1.2 d hd)

theorem star_print : (∀ c ∈ star, 32 ≤ c.toNat) ∧ star.length ≤ 200 := by decide

theorem namesAt_print {l : List Str} (hl : ∀ s ∈ l, isGoodIdent s = true) {ns : List Int} (hn : ∀ d ∈ ns, 0 ≤ d ∧ d ≤ l.length) :
    ∃ r, namesAt l ns = .ok r ∧ r.length = ns.length ∧ ∀ s ∈ r, (∀ c ∈ s, 32 ≤ c.toNat) ∧ s.length ≤ 200 := by
  obtain ⟨r, h1, h2⟩ := namesAt_ok (fun s hs => isGoodIdent_len (hl s hs)) ns hn
  refine ⟨r, h1, h2, ?_⟩
  intro s hs
  obtain ⟨d, _, hd⟩ := forall₂_mem (namesAt_each ns r h1) s hs
  split at hd
  · rw [hd]; exact star_print
  · exact ident_print (hl s (List.mem_of_getElem? (at1_ok hd).2.2))

/-- the domains of a symbol of a file of the library -/
theorem own_doms {g a : Gx} {syms : List Sym} (hi : Inv g) (hn : g.names = some syms) (hn2 : a.names = some (syms.map Sym.reopened))
    (hd : ∃ l, g.domStrs = some l ∧ a.domStrs = some l) {n : Nat} {s : Sym} (hs : syms[n]? = some s) :
    (symbolInfo a ((n : Int) + 1)).dim = s.dim ∧ (symbolInfo a ((n : Int) + 1)).typ = s.typ ∧ ∃ ds, DomsOk a ((n : Int) + 1) ds := by
  have hok := (hi.tab.syms syms hn).each n s hs
  have hlt := (List.getElem?_eq_some_iff.mp hs).1
  have hinfo : symbolInfo a ((n : Int) + 1) = ⟨true, s.name, s.dim, s.typ⟩ := by
    unfold symbolInfo Gx.symAt
    rw [if_neg (by omega), hn2]
    simp only [List.length_map]
    rw [if_pos (by omega), show ((n : Int) + 1 - 1).toNat = n by omega, List.getElem?_map, hs]
    rfl
  obtain ⟨dl, d1, d2⟩ := hd
  have hs' : (syms.map Sym.reopened)[n]? = some s.reopened := by rw [List.getElem?_map, hs]; rfl
  have hx := getDomainX_of hn2 hs'
  refine ⟨by rw [hinfo], by rw [hinfo], ?_⟩
  have hnames : ((syms.map Sym.reopened).map Sym.name) = syms.map Sym.name := by
    rw [List.map_map]
    rfl
  have hgood : ∀ x ∈ syms.map Sym.name, isGoodIdent x = true := by
    intro x hx
    obtain ⟨t, ht, rfl⟩ := List.mem_map.mp hx
    obtain ⟨k, hk⟩ := List.getElem?_of_mem ht
    exact ((hi.tab.syms syms hn).each k t hk).good
  unfold domainXOf at hx
  have e1 : s.reopened.domStrs = s.domStrs := rfl
  have e2 : s.reopened.domSyms = s.domSyms := rfl
  have e3 : s.reopened.dim = s.dim := rfl
  rw [e1, e2, hnames, d2] at hx
  cases hds : s.domStrs with
  | some ds =>
    obtain ⟨k1, k2⟩ := hok.dst ds hds
    obtain ⟨r, r1, r2, r3⟩ := namesAt_print (hi.dom dl d1) (ns := ds) (by
      unfold Gx.nDom at k2
      rw [d1] at k2
      exact k2)
    rw [hds] at hx
    simp only [need, Res.bind_ok, r1, Res.pure_eq] at hx
    exact ⟨r, ⟨2, hx⟩, by rw [hinfo, r2, k1], r3⟩
  | none =>
    rw [hds] at hx
    cases hdy : s.domSyms with
    | none =>
      rw [hdy] at hx
      simp only [Res.bind_ok, Res.pure_eq] at hx
      exact ⟨_, ⟨1, hx⟩, by rw [hinfo]; simp [e3], fun x hx => by rw [List.eq_of_mem_replicate hx]; exact star_print⟩
    | some ds =>
      obtain ⟨k1, k2⟩ := hok.dsy ds hdy
      obtain ⟨r, r1, r2, r3⟩ := namesAt_print hgood (ns := ds) (by rw [List.length_map]; exact k2)
      rw [hdy] at hx
      simp only [r1, Res.bind_ok, Res.pure_eq] at hx
      exact ⟨r, ⟨3, hx⟩, by rw [hinfo, r2, k1], r3⟩

theorem acro_name {o : Dump.Opt} (ho : OptOk o) {a : Gx} {l : List Acr} (hl : a.acros = some l) (hn : ∀ x ∈ l, Bare o.delim x.name ∧ x.name.length ≤ 255) {v : Dbl} {q : ℚ}
    (hv : v.fv = .fin q) : ∃ b s, acronymName a v = .ok (b, s) ∧ if b then Bare o.delim s else s = [] := by
  have hfin : dblInfo v = .finite := by
    have := expo_of_fin hv
    unfold Dbl.expo at this
    unfold dblInfo
    rw [if_neg this]
  have hidx : ∃ n, acrIndex v = .ok n := by
    unfold acrIndex acrDiv
    split
    · exact ⟨_, rfl⟩
    · rw [hfin, if_neg (by decide)]
      split
      · rename_i hp
        rw [hp] at hfin
        exact absurd hfin (by decide)
      · exact ⟨_, rfl⟩
  obtain ⟨n, hn'⟩ := hidx
  unfold acronymName
  rw [hn', Res.bind_ok]
  by_cases h0 : n ≤ 0
  · rw [if_pos h0]
    exact ⟨false, [], rfl, rfl⟩
  · rw [if_neg h0, hl]
    simp only [need, Res.bind_ok]
    cases hf : acrFind l n with
    | none =>
      refine ⟨true, _, rfl, ho.bare ?_⟩
      intro c hc
      rcases List.mem_append.mp hc with hc | hc
      · have : ∀ c ∈ unknownAcronym, Safe c := by unfold Safe; decide
        exact this c hc
      · obtain ⟨k, rfl⟩ := Int.eq_ofNat_of_zero_le (show 0 ≤ n by omega)
        rw [Merge.intToStr_nat] at hc
        exact Or.inr (Or.inr (Or.inr (Or.inl (Merge.digits_of 20 k c hc))))
    | some k =>
      obtain ⟨x, x1, _⟩ := acrFind_isSome hf
      have hx := hn x (List.mem_of_getElem? x1)
      have hat : at0 l k = .ok x := by
        unfold at0
        rw [if_pos (by omega), Int.toNat_natCast, x1]
      simp only [hat, Res.bind_ok]
      unfold fits
      rw [if_pos (by unfold ssSize; omega)]
      exact ⟨true, _, rfl, hx.1⟩

/-- a text of the table, or the replacement for a number that has none -/
theorem elem_text {a : Gx} {l : List (Str × Int)} (hl : a.texts = some l) (hp : ∀ p ∈ l, Printable p.1) (n : Int) : ∃ b t k, getElemText a n = (b, t, k) ∧ Printable t := by
  have hbad : Printable (badStrPrefix ++ intToStr n) := by
    have hlen := intToStr_length n
    refine ⟨?_, by simp [badStrPrefix]; omega⟩
    intro c hc
    rcases List.mem_append.mp hc with hc | hc
    · have : ∀ c ∈ badStrPrefix, 32 ≤ c.toNat := by decide
      exact this c hc
    · have hd : ∀ k, ∀ c ∈ digits 20 k, 32 ≤ c.toNat := by
        intro k c hc
        have := UInt8.le_iff_toNat_le.mp (Merge.digits_of 20 k c hc).1
        have h48 : (48 : UInt8).toNat = 48 := rfl
        omega
      unfold intToStr at hc
      split at hc
      · rcases List.mem_cons.mp hc with rfl | hc
        · decide
        · exact hd _ c hc
      · exact hd _ c hc
  unfold getElemText
  rw [hl]
  simp only
  split
  · cases h : l[n.toNat]? with
    | none => exact ⟨_, _, _, rfl, hbad⟩
    | some p => exact ⟨true, p.1, p.2, rfl, hp p (List.mem_of_getElem? h)⟩
  · exact ⟨_, _, _, rfl, hbad⟩

/-- a symbol of a file of the library, as gdxdump finds it -/
theorem own_ready {o : Dump.Opt} (ho : OptOk o) {e : Env} {z : Cz} (hz : z.Good) {g : Gx} {syms : List Sym} {R : Nat → List RawEntry} {f : List UInt8} (h : OwnFile e z g syms R f)
    (hacr : ∀ l, g.acros = some l → ∀ x ∈ l, Bare o.delim x.saveName ∧ x.saveName.length ≤ 255) {n : Nat} {s : Sym} (hs : syms[n]? = some s) :
    ∃ a d xs outs ds, openRead z Gx.new (.content f) = .ok (a, (true, 0)) ∧ a.uel.map Uel.strs = g.uel.map Uel.strs ∧ contentOf syms R ((n : Int) + 1) = (d, xs) ∧ Fresh a ∧
      HoldsSym z a ((n : Int) + 1) d xs ∧ (∀ x ∈ xs, Spec.Distinct x.sv) ∧ (symbolInfo a ((n : Int) + 1)).typ = s.typ ∧ symTyp s.typ = d.typ ∧ d.typ ≤ 3 ∧ d.dim = s.dim ∧ DomsOk a ((n : Int) + 1) ds ∧
      a.rsv = SVTab.default ∧ Delivered a.rsv (acrOf a) d xs outs ∧ outs.length = xs.length ∧
      ((∀ r ∈ outs, ∀ v ∈ r.vals, ∃ q, v.fv = .fin q ∧ (q ≠ 0 → Nearest15 (o.dtoa v) q)) →
       ((s.typ = dtSet ∨ s.typ = dtAlias) → o.setText = true → ∀ r ∈ outs, ∀ v ∈ r.vals, Diff.roundInt v ≠ .ub) →
       ∀ outs', Delivered a.rsv (acrOf a) d xs outs' → ∀ r ∈ outs', CanDump o a s.typ r) := by
  obtain ⟨a, P, a1, a2, a3, a4⟩ := h.content hz
  have fi := h.hist.fine hz
  obtain ⟨g', k, hcl, rfl⟩ := h.close
  obtain ⟨a', b1, b2, b3⟩ := close_open hz fi.inv h.mode (fi.stat h.mode) hcl h.fits h.len Gx.new rfl 0
  rw [show openReadXX z Gx.new (.content g'.file) 0 = openRead z Gx.new (.content g'.file) from rfl, a1] at b1
  cases b1
  obtain ⟨i1, i2, ds, hds⟩ := own_doms fi.inv h.full.names a3 b2.doms hs
  have hsome : (a.symAt ((n : Int) + 1)).isSome = true := by
    have hlt := (List.getElem?_eq_some_iff.mp hs).1
    unfold Gx.symAt
    rw [a3]
    simp only [List.length_map]
    rw [if_pos (by omega), show ((n : Int) + 1 - 1).toNat = n by omega, List.getElem?_map, hs]
    rfl
  have hold := a2.holds _ hsome
  obtain ⟨m, t, t1, t2, t3, t4⟩ := Merge.target_typ (fi.inv.tab.syms syms h.full.names) h.full.univ hs
  have hcont : contentOf syms R ((n : Int) + 1) = (⟨t.name, t.dim, t.typ, t.userInfo⟩, R m) := by
    unfold contentOf targetOf
    rw [t1]
    simp only [Nat.add_sub_cancel, t2, Option.map_some]
  rw [hcont] at hold
  dsimp only at hold
  have htyp : symTyp (symbolInfo a ((n : Int) + 1)).typ = t.typ := by
    rw [i2]
    unfold symTyp
    split at t4
    · rename_i ha; rw [if_pos ha, t4]
    · rename_i ha; rw [if_neg ha, t4.2]
  have ht3 : t.typ ≤ 3 := by
    rw [← htyp, i2]
    have := ((fi.inv.tab.syms syms h.full.names).each n s hs).typ
    unfold symTyp
    split
    · decide
    · rename_i ha
      unfold dtAlias at ha
      omega
  have hsv : a.sv = SVTab.default ∧ a.rsv = SVTab.default := b2.sv
  obtain ⟨mm, ld, tg⟩ := hold.sym
  obtain ⟨outs, o1, _⟩ := ld.reads hz tg
  obtain ⟨al, al1, al2⟩ := b2.acros
  obtain ⟨xl, xl1, xl2⟩ := b2.texts (by decide)
  obtain ⟨hall, hlen⟩ := vals_length hold o1
  refine ⟨a, _, _, outs, ds, a1, a4, hcont, a2.fresh, hold, ld.sv, i2, by rw [← i2]; exact htyp, ht3, t3, hds, hsv.2, o1, hlen, ?_⟩
  · intro hfin hset outs' ho' r hr
    rw [← Delivered.unique ld.sv o1 ho'] at hr
    have hvok : ∀ v ∈ r.vals, ValOk o a v := by
      intro v hv
      obtain ⟨q, hq, hq2⟩ := hfin r hr v hv
      refine ⟨acro_name ho al2 ?_ hq, fun _ => ⟨q, hq, hq2⟩⟩
      intro x hx
      obtain ⟨y, hy, rfl⟩ := List.mem_map.mp hx
      exact hacr al al1 y hy
    refine ⟨fun _ _ v hv => hvok v ?_, ?_⟩
    · unfold shown at hv
      split at hv <;> exact List.mem_of_mem_take hv
    · intro hty hst
      have hty' : s.typ = dtSet ∨ s.typ = dtAlias := by
        by_contra hcon
        exact hty ⟨fun h => hcon (Or.inl h), fun h => hcon (Or.inr h)⟩
      have htset : t.typ = dtSet := by
        rw [← htyp, i2]
        rcases hty' with hh | hh <;> rw [hh] <;> decide
      have hl1 := (hall r hr).1
      rw [htset] at hl1
      have hl1 : r.vals.length = 1 := hl1
      obtain ⟨v, hv⟩ := List.length_eq_one_iff.mp hl1
      have hvm : v ∈ r.vals := by rw [hv]; simp
      by_cases hz0 : v.fv = .fin 0
      · exact ⟨[], v, [], hv, Or.inl ⟨hz0, rfl⟩⟩
      · have hru := hset hty' hst r hr v hvm
        cases hri : Diff.roundInt v with
        | ub => exact absurd hri hru
        | ok k =>
          obtain ⟨b, w, kk, w1, w2⟩ := elem_text xl2 (by
            intro p hp
            obtain ⟨y, hy, rfl⟩ := List.mem_map.mp hp
            obtain ⟨_, y1, y2⟩ := (fi.inv.txt xl xl1).zfree y hy
            exact ⟨fun c hc => UInt8.le_iff_toNat_le.mp (y2.1 c hc), y1⟩) k
          exact ⟨w, v, [], hv, Or.inr ⟨hz0, k, b, kk, hri, w1, w2⟩⟩

/-- C67 for files of the library, in whatever way they were written: every symbol. What is missing: CDim (C69), the header of the user, values that are infinite
    or NaN and not special (undefined, C66), set elements whose value is no number of a text (undefined); aliases of the universe, and
    scalars without record (C59). -/
theorem C67_own {o : Dump.Opt} (ho : OptOk o) {e : Env} {z : Cz} (hz : z.Good) {g : Gx} {syms : List Sym} {R : Nat → List RawEntry} {f : List UInt8} (h : OwnFile e z g syms R f)
    (hacr : ∀ l, g.acros = some l → ∀ x ∈ l, Bare o.delim x.saveName ∧ x.saveName.length ≤ 255) {n : Nat} {s : Sym} (hs : syms[n]? = some s)
    (h0 : s.dim = 0 → s.typ ≠ dtSet ∧ s.typ ≠ dtAlias) (hc : ¬ (o.cdim = true ∧ 2 ≤ s.dim)) :
    ∃ a outs, openRead z Gx.new (.content f) = .ok (a, (true, 0)) ∧ a.uel.map Uel.strs = g.uel.map Uel.strs ∧
      Delivered SVTab.default (acrOf a) (contentOf syms R ((n : Int) + 1)).1 (contentOf syms R ((n : Int) + 1)).2 outs ∧
      ((∀ r ∈ outs, ∀ v ∈ r.vals, ∃ q, v.fv = .fin q ∧ (q ≠ 0 → Nearest15 (o.dtoa v) q)) →
       ((s.typ = dtSet ∨ s.typ = dtAlias) → o.setText = true → ∀ r ∈ outs, ∀ v ∈ r.vals, Diff.roundInt v ≠ .ub) →
       ∀ fuel, outs.length < fuel → ∃ ds c names rows g' text, symbolGetDomainX a ((n : Int) + 1) = .ok (a, (c, ds)) ∧ NamesOf ds names ∧
        writeCSV o z fuel a ((n : Int) + 1) = .ok (g', text) ∧
        csvRead o.delim text = some ((if o.showHdr = true then [names ++ valueNames o s.typ] else []) ++ rows) ∧ List.Forall₂ (RowOf o a s.typ) outs rows) := by
  obtain ⟨a, d, xs, outs, ds, a1, a2, a3, a4, a5, a6, a7, a8, a9, a10, a11, a12, a13, a14, a15⟩ := own_ready ho hz h hacr hs
  refine ⟨a, outs, a1, a2, by rw [a3, ← a12]; exact a13, ?_⟩
  intro hfin hset fuel hfu
  obtain ⟨outs', names, rows, g2, text, q1, q2, q3, q4, q5⟩ := C67_csv ho hz a4 a5 (by rw [a7]; exact a8) a9 a11 (by rw [a10]; exact hc)
    (by
      intro hd0
      rw [a10] at hd0
      rw [← a8]
      obtain ⟨z1, z2⟩ := h0 hd0
      unfold symTyp
      rw [if_neg z2]
      exact z1) (by rw [a7]; exact a15 hfin hset) (fuel := fuel) (by omega)
  obtain ⟨c, hget⟩ := a11.get
  rw [← Delivered.unique a6 a13 q1] at q5
  rw [a7] at q4 q5
  exact ⟨ds, c, names, rows, g2, text, hget, q2, q3, q4, q5⟩

/-! ## the header -/

/-- C68: the names of the columns are made from the names of the domains, one for every dimension; two columns that are not neighbours have different names; if
    the names of the domains differ they are the names of the columns. What is missing: neighbours, see the counterexample. -/
theorem C68_names_partial (ds : List Str) (h : ds.length ≤ 20) :
    ∃ names, domNames [] 1 ds = .ok names ∧ names.length = ds.length ∧ (∀ i s t, ds[i]? = some s → names[i]? = some t → IsName (baseOf i s) t) ∧
      (∀ i j s t, i + 2 ≤ j → names[i]? = some s → names[j]? = some t → s ≠ t) ∧
      ((ds.mapIdx baseOf).Nodup → names = ds.mapIdx baseOf) := by
  obtain ⟨names, n1, n2, _⟩ := domNames_spec ds [] [] 1 ⟨rfl, (fun i s t hh => by cases hh), (fun i j s t _ hh => by cases hh)⟩ (by simpa using h) (by simp)
  rw [List.nil_append] at n2
  refine ⟨names, n1, n2.len, n2.made, n2.diff, fun hn => ?_⟩
  have := domNames_plain ds [] 1 (by simpa using hn)
  rw [show domNames [] 1 ds = .ok names from n1] at this
  cases this
  simp

/-- C68 fails for neighbours: a parameter over the set `i` twice gets two columns `i`, and then `i_1` for the third. -/
theorem C68_neighbours : domNames [] 1 [[105], [105], [105]] = .ok [[105], [105], [105, 95, 49]] := by decide +kernel

/-! ## examples, the period as delimiter -/

/-- what gdxdump writes for symbol `nr` of the file that the calls write -/
def csvOf (o : Dump.Opt) (cs : List Call) (nr : Int) : Res Str := do
  let f ← fileOf cs
  let (a, _) ← openRead Cz.id Gx.new (.content f)
  let (_, t) ← writeCSV o Cz.id 100 a nr
  pure t

/-- the parameter `p` with the records `a"b`, `x,y`: 1.5 and `c`, `y`: 0.1, `c`, `z`: Eps -/
def exDump : List Call :=
  [.openWrite false 0 [65] 0, .strStart [112] [] 2 1 0, .writeStr [[97, 34, 98], [120, 44, 121]] [0x3ff8000000000000], .writeStr [[99], [121]] [0x3fb999999999999a],
    .writeStr [[99], [122]] [SVTab.default.eps], .writeDone]

/-- `"Dim1","Dim2","Val"`, `"a""b","x,y",1.5`, `"c","y",0.1`, `"c","z",Eps` -/
example : csvOf { dtoa := sampleDtoa } exDump 1 = .ok
    ([34, 68, 105, 109, 49, 34, 44, 34, 68, 105, 109, 50, 34, 44, 34, 86, 97, 108, 34, 10] ++
     [34, 97, 34, 34, 98, 34, 44, 34, 120, 44, 121, 34, 44, 49, 46, 53, 10] ++ [34, 99, 34, 44, 34, 121, 34, 44, 48, 46, 49, 10] ++
     [34, 99, 34, 44, 34, 122, 34, 44, 69, 112, 115, 10]) := by decide +kernel

example : (do
    let t ← csvOf { dtoa := sampleDtoa } exDump 1
    pure (csvRead 44 t)) = .ok (some [[[68, 105, 109, 49], [68, 105, 109, 50], sVal], [[97, 34, 98], [120, 44, 121], [49, 46, 53]], [[99], [121], [48, 46, 49]],
      [[99], [122], [69, 112, 115]]]) := by decide +kernel

/-- the options are allowed -/
example : OptOk { dtoa := sampleDtoa } :=
  ⟨Or.inl rfl, Or.inl rfl, fun t h => (by unfold UserWord at h; simp at h), fun t h => (by cases h), rfl⟩

/-- C67 fails with `Delim=period`: gdxdump takes it, though the decimal separator is the same, and 1.5 becomes two fields. -/
theorem C67_period : (do
    let t ← csvOf { dtoa := sampleDtoa, delim := 46, showHdr := false } exDump 1
    pure (csvRead 46 t)) = .ok (some [[[97, 34, 98], [120, 44, 121], [49], [53]], [[99], [121], [48], [49]], [[99], [122], [69, 112, 115]]]) := by decide +kernel

#print axioms C67_csv
#print axioms C67_own
#print axioms C67_period
#print axioms C68_names_partial
#print axioms C68_neighbours

end Gdx.Props
