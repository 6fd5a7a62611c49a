import Verif.Proofs.DumpGams
import Verif.Props.DumpCsv
import Verif.Props.Strings

/-!
C70: gdxdump writes GAMS declarations that are read back as the symbol.
-/

namespace Gdx.Props
open Gdx Gdx.Dump Gdx.DblStr Gdx.Diff Gdx.Gams

/-! ## what must be read -/

/-- a word that can stand for a value: not empty, no blank, newline, `,`, `/` or `;`, no quote or dot at the start -/
structure ValWord (t : Str) : Prop where
  ne : t ≠ []
  chars : ∀ c ∈ t, c ≠ 32 ∧ c ≠ 10 ∧ c ≠ 44 ∧ c ≠ 47 ∧ c ≠ 59
  head : ∀ c, t.head? = some c → c ≠ 39 ∧ c ≠ 34 ∧ c ≠ 46

/-- a text of a set element that gdxdump can write: it can be quoted, and if it starts with a quote or dot then there is a character for the sake of which it
    is quoted -/
structure TextOk (t : Str) : Prop where
  quotable : Quotable t
  head : t.head? = some 39 ∨ t.head? = some 34 ∨ t.head? = some 46 → ∃ c ∈ t, c = 32 ∨ c = 44 ∨ c = 59 ∨ c = 47 ∨ c = 36 ∨ c = 61 ∨ c = 42

/-- `binary`, `integer`, `positive`, `negative`, `free`, `sos1`, `sos2`, `semicont`, `semiint` -/
def varWord (u : Int) : Str :=
  match u with
  | 1 => [98, 105, 110, 97, 114, 121]
  | 2 => [105, 110, 116, 101, 103, 101, 114]
  | 3 => [112, 111, 115, 105, 116, 105, 118, 101]
  | 4 => [110, 101, 103, 97, 116, 105, 118, 101]
  | 6 => [115, 111, 115, 49]
  | 7 => [115, 111, 115, 50]
  | 8 => [115, 101, 109, 105, 99, 111, 110, 116]
  | 9 => [115, 101, 109, 105, 105, 110, 116]
  | _ => [102, 114, 101, 101]

/-- the words before the name: `Set`, `Singleton Set`, `Scalar`, `Parameter`, `Variable` with its type before it, `Equation`, `Logic Equation` -/
def kindOf (typ : Nat) (dim user : Int) : List Str :=
  match typ with
  | 0 => if user = 1 then [[83, 105, 110, 103, 108, 101, 116, 111, 110], [83, 101, 116]] else [[83, 101, 116]]
  | 1 => if dim = 0 then [[83, 99, 97, 108, 97, 114]] else [[80, 97, 114, 97, 109, 101, 116, 101, 114]]
  | 2 => if user = 0 then [[86, 97, 114, 105, 97, 98, 108, 101]] else [varWord user, [86, 97, 114, 105, 97, 98, 108, 101]]
  | _ => if user = 6 then [[76, 111, 103, 105, 99], [69, 113, 117, 97, 116, 105, 111, 110]] else [[69, 113, 117, 97, 116, 105, 111, 110]]

/-- lower and upper bound of a new variable -/
def varBounds (u : Int) : Dbl × Dbl :=
  match u with
  | 0 => (Dbl.zero, Dbl.zero)
  | 1 => (Dbl.zero, Dbl.one)
  | 2 => (Dbl.zero, SVTab.default.pin)
  | 3 => (Dbl.zero, SVTab.default.pin)
  | 4 => (SVTab.default.min, Dbl.zero)
  | 6 => (Dbl.zero, SVTab.default.pin)
  | 7 => (Dbl.zero, SVTab.default.pin)
  | 8 => (Dbl.one, SVTab.default.pin)
  | 9 => (Dbl.one, SVTab.default.pin)
  | _ => (SVTab.default.min, SVTab.default.pin)

/-- the value of field `k` (level, marginal, lower, upper, scale) that is not written; the bounds of an equation are always written -/
def defaultOf (typ : Nat) (user : Int) (k : Nat) : Option Dbl :=
  match typ, k with
  | 1, _ => some Dbl.zero
  | 2, 2 => some (varBounds user).1
  | 2, 3 => some (varBounds user).2
  | 3, 2 => none
  | 3, 3 => none
  | 0, _ => none
  | _, 4 => some Dbl.one
  | _, _ => some Dbl.zero

/-- `L`, `M`, `LO`, `UP`, `SCALE` for variables and equations -/
def fieldName (typ k : Nat) : List Str :=
  if typ = 2 ∨ typ = 3 then
    match k with
    | 0 => [[76]]
    | 1 => [[77]]
    | 2 => [[76, 79]]
    | 3 => [[85, 80]]
    | _ => [[83, 67, 65, 76, 69]]
  else []

/-- the entries for field `k` of a record with these labels: none if the value is the default, and not that of a scalar; otherwise labels, name of the field, value -/
def FieldOf (o : GOpt) (a : Gx) (typ : Nat) (dim user : Int) (r : RecOut Int) (ls : List Str) (k : Nat) (es : List (List Str × Str)) : Prop :=
  ∃ v, r.vals[k]? = some v ∧
    ((o.filter = true ∧ ¬ (typ = 1 ∧ dim = 0) ∧ ∃ w, defaultOf typ user k = some w ∧ v.fv = w.fv) ∧ es = [] ∨
     ¬ (o.filter = true ∧ ¬ (typ = 1 ∧ dim = 0) ∧ ∃ w, defaultOf typ user k = some w ∧ v.fv = w.fv) ∧ ∃ t, ValueText o.toOpt a v t ∧ es = [(ls ++ fieldName typ k, t)])

/-- the entries for a record -/
def EntriesOf (o : GOpt) (a : Gx) (typ : Nat) (dim user : Int) (r : RecOut Int) (es : List (List Str × Str)) : Prop :=
  ∃ ls, List.Forall₂ (LabelIs a) r.key ls ∧
    if typ = 0 then ∃ t, SetText a r.vals t ∧ es = [(ls, t)]
    else ∃ ess, List.Forall₂ (FieldOf o a typ dim user r ls) (if typ = 1 then [0] else [0, 1, 2, 3, 4]) ess ∧ es = ess.flatten

/-- the name of a domain: `*` or the name of the set -/
def DomNamed (a : Gx) (n : Int) (t : Str) : Prop := if n ≤ 0 then t = [42] else ∃ q, a.symAt n = some q ∧ t = q.name

/-! ## what gdxdump needs -/

/-- the options: as they are by default, but for the formats of numbers, FilterDef, and words for special values -/
structure GOptOk (o : GOpt) : Prop where
  delim : o.delim = 46
  sep : o.sep = 46
  hdr : o.showHdr = true
  data : o.data = true
  sv : ∀ t, UserWord o.toOpt t → ValWord t
  zero : ∀ t, o.zero = some t → ValWord t

/-- what is needed of a value -/
structure GValOk (o : GOpt) (a : Gx) (v : Dbl) : Prop where
  acr : ∃ b s, acronymName a v = .ok (b, s) ∧ if b then ValWord s else s = []
  fin : ∃ q, v.fv = .fin q ∧ (mapValue a.sv v = 5 → q ≠ 0 → Nearest15 (o.dtoa v) q)

/-- what is needed of a record -/
structure CanDeclare (o : GOpt) (a : Gx) (typ : Nat) (r : RecOut Int) : Prop where
  vals : typ ≠ 0 → ∀ v ∈ r.vals, GValOk o a v
  text : typ = 0 → ∃ t, SetText a r.vals t ∧ TextOk t

/-- what is needed of the symbol for the header -/
structure HeadOk (a : Gx) (nr : Int) (s : Sym) : Prop where
  sym : a.symAt nr = some s
  typ : s.typ ≤ 3
  name : isGoodIdent s.name = true
  dim : 0 ≤ s.dim ∧ s.dim ≤ 20
  doms : ∀ l, s.domSyms = some l → l.length = s.dim.toNat ∧ ∀ d ∈ l, d ≤ 0 ∨ ∃ t, a.symAt d = some t ∧ isGoodIdent t.name = true
  expl : Quotable s.expl

/-- what is needed of the symbol -/
structure DeclOk (a : Gx) (nr : Int) (s : Sym) (cs : List Str) : Prop extends HeadOk a nr s where
  coms : s.comments = cs.map some
  lines : ∀ c ∈ cs, (10 : UInt8) ∉ c
  noset : s.dim = 0 → s.typ ≠ 0 ∧ cs = []

/-! ## values -/

theorem ValWord.ends {t : Str} (h : ValWord t) : ∀ c ∈ t, endsVal c = false := by
  intro c hc
  obtain ⟨h1, h2, h3, h4, h5⟩ := h.chars c hc
  simp [endsVal, isBlank, h1, h2, h3, h4, h5]

theorem ValWord.of_safe {t : Str} (h0 : t ≠ []) (h : ∀ c ∈ t, Safe c) (hh : t.head? ≠ some 46) : ValWord t := by
  have key : ∀ c, Safe c → c ≠ 47 ∧ c ≠ 39 := by
    intro c hc
    refine ⟨?_, ?_⟩ <;> (rintro rfl; unfold Safe at hc; revert hc; decide)
  refine ⟨h0, fun c hc => ?_, fun c hc => ?_⟩
  · have hs := h c hc
    exact ⟨safe_ne hs (by simp), safe_ne hs (by simp), safe_ne hs (by simp), (key c hs).1, safe_ne hs (by simp)⟩
  · have hs := h c (List.mem_of_mem_head? hc)
    exact ⟨(key c hs).2, safe_ne hs (by simp), fun he => hh (by rw [hc, he])⟩

theorem decVal_head {t : Str} {p : ℚ} (h : decVal 46 t = some p) : t ≠ [] ∧ t.head? ≠ some 46 := by
  have h0 : decVal 46 [] = none := by decide +kernel
  have hm : ∀ x, mant 46 (46 :: x) = none := fun x => rfl
  refine ⟨fun he => (by rw [he, h0] at h; cases h), fun he => ?_⟩
  cases t with
  | nil => cases he
  | cons c t =>
    cases he
    have h : unsigned 46 (46 :: t) = some p := h
    unfold unsigned at h
    split at h
    · rw [hm] at h
      cases h
    · rw [List.takeWhile_cons_of_pos (by decide), hm] at h
      cases h

/-- the text of a number is a word -/
theorem num_word {o : GOpt} (ho : GOptOk o) {v : Dbl} {q : ℚ} (hv : v.fv = .fin q) (hd : q ≠ 0 → Nearest15 (o.dtoa v) q) :
    ∃ t, numStr o.toOpt v = .ok t ∧ ValWord t ∧ NumText o.toOpt v t := by
  unfold numStr NumText
  cases hf : o.dfmt with
  | hexBytes =>
    refine ⟨_, rfl, .of_safe ?_ (hexBytes_safe v) ?_, q, hv, (C66_hexBytes v).1⟩
    · rw [hexBytes_eq]; simp
    · rw [hexBytes_eq]; simp
  | hexponential =>
    refine ⟨_, rfl, ?_, q, hv, (C66_hexponential hv).1⟩
    have hh : ∃ c x, hexponential v = c :: x ∧ c ≠ 46 := by
      unfold hexponential
      dsimp only
      cases v.isNeg
      all_goals
        simp only [if_true, if_false, Bool.false_eq_true]
        split
        · split
          · exact ⟨_, _, rfl, by decide⟩
          · exact ⟨_, _, rfl, by decide⟩
        · split
          · exact ⟨_, _, rfl, by decide⟩
          · split
            · exact ⟨_, _, rfl, by decide⟩
            · exact ⟨_, _, rfl, by decide⟩
    obtain ⟨c, x, h1, h2⟩ := hh
    exact .of_safe (by rw [h1]; simp) (hexponential_safe v) (by rw [h1]; simpa using h2)
  | normal =>
    by_cases h0 : q = 0
    · subst h0
      exact ⟨[48], if_pos hv, .of_safe (by simp) (by intro c hc; rw [List.mem_singleton.mp hc]; unfold Safe; decide) (by decide), 0, hv, by dsimp only; rw [if_pos rfl]⟩
    · have hn := hd h0
      obtain ⟨t, p, d1, d2, d3, d4, d5⟩ := C66_decimal hv h0 hn
      obtain ⟨e1, e2⟩ := decVal_head d2
      rw [ho.sep]
      refine ⟨t, d1, .of_safe e1 (fun c hc => ?_) e2, q, hv, by dsimp only; rw [if_neg h0]; exact ⟨p, d4, Or.inl d2⟩⟩
      rcases d5 c hc with h | rfl | rfl | rfl
      · exact safe_dig h
      all_goals unfold Safe; decide

theorem svStr_word (k : Nat) : ValWord (svStr k) := by
  refine .of_safe ?_ (svStr_safe k) ?_
  all_goals unfold svStr; split <;> decide

theorem val_word {o : GOpt} (ho : GOptOk o) {a : Gx} {v : Dbl} (hv : GValOk o a v) : ∃ t, wrVal o.toOpt a v = .ok t ∧ ValWord t ∧ ValueText o.toOpt a v t := by
  obtain ⟨⟨b, s, h1, h2⟩, q, hq, hn⟩ := hv
  unfold Dump.wrVal ValueText
  rw [h1]
  simp only [Res.bind_ok]
  cases b with
  | true => exact ⟨s, rfl, h2, Or.inl rfl⟩
  | false =>
    have hs : s = [] := h2
    subst hs
    simp only [Bool.false_eq_true, if_false]
    by_cases h5 : mapValue a.sv v = 5
    · obtain ⟨t, t1, t2, t3⟩ := num_word ho hq (hn h5)
      simp only [if_neg (show ¬ (mapValue a.sv v ≠ 5) by simp [h5]), if_pos h5]
      cases hz : o.zero with
      | none => exact ⟨t, t1, t2, Or.inr ⟨trivial, Or.inr ⟨by simp, t3⟩⟩⟩
      | some w =>
        dsimp only
        by_cases h0 : v.fv = .fin 0
        · rw [if_pos h0]
          exact ⟨w, rfl, ho.zero w hz, Or.inr ⟨trivial, Or.inl ⟨h0, rfl⟩⟩⟩
        · rw [if_neg h0]
          exact ⟨t, t1, t2, Or.inr ⟨trivial, Or.inr ⟨fun h => h0 h.1, t3⟩⟩⟩
    · simp only [if_pos (show mapValue a.sv v ≠ 5 from h5), if_neg h5]
      refine ⟨_, rfl, ?_, Or.inr ⟨trivial, (specialWord_eq _ _).symm⟩⟩
      cases hk : svOpt o.toOpt (mapValue a.sv v) with
      | none => exact svStr_word _
      | some w => exact ho.sv w (.of hk)

theorem dblEq_iff {v w : Dbl} {q : ℚ} (hv : v.fv = .fin q) {p : ℚ} (hw : w.fv = .fin p) : dblEq v w = true ↔ v.fv = w.fv := by
  unfold dblEq
  rw [hv, hw]
  simp only [FV.le, Bool.and_eq_true, decide_eq_true_eq, FV.fin.injEq]
  exact ⟨fun h => le_antisymm h.1 h.2, fun h => ⟨h.le, h.ge⟩⟩

/-! ## entries -/

theorem label_quote {a : Gx} (ha : Fresh a) {e : Int} (he : 1 ≤ e ∧ e ≤ (systemInfo a).2) : ∃ s, QLabel a e s := by
  obtain ⟨s, hs⟩ := label_of ha he
  refine ⟨s, hs, ?_⟩
  obtain ⟨u, k, m, h1, _, h3, _⟩ := hs
  have hg := ((ha.good _ h1).good s (by
    unfold Uel.strs
    exact List.mem_map.mpr ⟨_, List.mem_of_getElem? h3, rfl⟩)).1
  unfold goodUEL canBeQuoted at hg
  rw [Bool.and_eq_true, canBeQuotedLoop_iff] at hg
  rintro ⟨q1, q2⟩
  exact hg.2.2.1 ⟨q1, Or.inr q2⟩

theorem label_chars {a : Gx} {e : Int} {s : Str} (h : QLabel a e s) : ∀ c ∈ writeUEL s, c ≠ 10 := by
  obtain ⟨⟨_, _, _, _, _, _, h4, _⟩, h5⟩ := h
  obtain ⟨_, h6⟩ := qq_ok h5
  intro c hc
  unfold writeUEL at hc
  rcases List.mem_append.mp hc with hc | hc
  · rcases List.mem_append.mp hc with hc | hc
    · rw [List.mem_singleton.mp hc]
      rcases h6 with h | h <;> rw [h] <;> decide
    · rintro rfl
      exact absurd (h4.1 10 hc) (by decide)
  · rw [List.mem_singleton.mp hc]
    rcases h6 with h | h <;> rw [h] <;> decide

theorem joined_chars {d : UInt8} (hd : d ≠ 10) {ts : List Str} (h : ∀ t ∈ ts, ∀ c ∈ t, c ≠ 10) : ∀ c ∈ joined d ts, c ≠ 10 := by
  induction ts with
  | nil => intro c hc; cases hc
  | cons t ts ih =>
    rw [joined_cons]
    intro c hc
    rcases List.mem_append.mp hc with hc | hc
    · exact h t (by simp) c hc
    · obtain ⟨x, hx, hxc⟩ := List.mem_flatten.mp hc
      obtain ⟨y, hy, rfl⟩ := List.mem_map.mp hx
      rcases List.mem_append.mp hxc with hxc | hxc
      · rw [List.mem_singleton.mp hxc]; exact hd
      · exact h y (by simp [hy]) c hxc

theorem keys_chars {a : Gx} {ks : List Int} {ls : List Str} (h : List.Forall₂ (QLabel a) ks ls) : ∀ t ∈ ls.map writeUEL, ∀ c ∈ t, c ≠ 10 := by
  induction h with
  | nil => intro t ht; cases ht
  | cons h1 _ ih =>
    intro t ht
    rcases List.mem_cons.mp ht with rfl | ht
    · exact label_chars h1
    · exact ih t ht

theorem keys_line {a : Gx} {ks : List Int} {ls : List Str} (h : List.Forall₂ (QLabel a) ks ls) : ∀ c ∈ joined 46 (ls.map writeUEL), c ≠ 10 :=
  joined_chars (by decide) (keys_chars h)

theorem keys_labels {a : Gx} {ks : List Int} {ls : List Str} (h : List.Forall₂ (QLabel a) ks ls) : List.Forall₂ IsLabel (ls.map writeUEL) ls := by
  induction h with
  | nil => exact .nil
  | cons h1 _ ih => exact .cons (label_uel h1.2) ih

theorem keys_head {a : Gx} {ks : List Int} {ls : List Str} (h : List.Forall₂ (QLabel a) ks ls) (h0 : ks ≠ []) (t : Str) :
    (joined 46 (ls.map writeUEL) ++ t).head? ≠ some 42 ∧ joined 46 (ls.map writeUEL) ++ t ≠ [] := by
  cases h with
  | nil => exact absurd rfl h0
  | cons h1 _ =>
    rw [List.map_cons, joined_cons]
    obtain ⟨_, h6⟩ := qq_ok h1.2
    unfold writeUEL
    refine ⟨?_, by simp⟩
    simp only [List.singleton_append, List.cons_append, List.head?_cons]
    rcases h6 with h | h <;> rw [h] <;> decide

theorem valTyp_name {k : Nat} : valTyp k ≠ [] ∧ (∀ c ∈ valTyp k, endsWord c = false ∧ c ≠ 39 ∧ c ≠ 34) ∧ (∀ c ∈ valTyp k, c ≠ 10) ∧ (valTyp k).head? ≠ some 42 := by
  unfold valTyp
  split <;> decide

theorem fieldName_eq {typ k : Nat} (h : typ = 2 ∨ typ = 3) : fieldName typ k = [valTyp k] := by
  unfold fieldName valTyp
  rw [if_pos h]
  match k with
  | 0 => rfl
  | 1 => rfl
  | 2 => rfl
  | 3 => rfl
  | n + 4 => rfl

/-- the entry for a value -/
theorem entry_val {o : GOpt} (ho : GOptOk o) {a : Gx} {dim typ : Nat} {ks : List Int} {ls : List Str} (h : List.Forall₂ (QLabel a) ks ls) (hk : ks.length = dim) {v : Dbl} {t : Str}
    (ht : wrVal o.toOpt a v = .ok t) (hw : ValWord t) {vals : List Dbl} {k : Nat} (hv : vals[k]? = some v) (hty : typ = 1 ∨ typ = 2 ∨ typ = 3) :
    ∃ s, gBody o a dim typ vals k = .ok s ∧ IsEntry (if typ = 1 then dim else dim + 1) (joined o.delim (ls.map writeUEL) ++ s) (ls ++ fieldName typ k, t) ∧
      LineOk (joined o.delim (ls.map writeUEL) ++ s) := by
  have hat : at0 vals (k : Int) = .ok v := at0_nat hv
  have hlen : (ls.map writeUEL).length = dim := by rw [List.length_map, ← h.length_eq, hk]
  have hb : IsBody (32 :: t) t := body_bare hw.ne hw.ends hw.head
  have ht10 : ∀ c ∈ t, c ≠ 10 := fun c hc => (hw.chars c hc).2.1
  rw [ho.delim]
  by_cases h1 : typ = 1
  · subst h1
    refine ⟨[32] ++ t, ?_, ?_, ?_⟩
    · unfold gBody
      rw [if_neg (by decide), if_pos (by rfl), hat, Res.bind_ok, ht]
      rfl
    · rw [if_pos rfl, show fieldName 1 k = [] from rfl, List.append_nil]
      by_cases h0 : dim = 0
      · have hl : ls = [] := by
          rw [h0, List.length_map] at hlen
          exact List.length_eq_zero_iff.mp hlen
        subst hl
        rw [h0]
        exact entry_zero hw.ne hw.ends hw.head
      · have := entry_ok (keys_labels h) (by intro hc; rw [hc] at hlen; exact h0 hlen.symm) hb (by intro c hc; cases hc; rfl)
        rw [hlen] at this
        exact this
    · refine ⟨?_, ?_, by simp⟩
      · intro hc
        rcases List.mem_append.mp hc with hc | hc
        · exact keys_line h 10 hc rfl
        · rcases List.mem_append.mp hc with hc | hc
          · exact absurd (List.mem_singleton.mp hc) (by decide)
          · exact ht10 10 hc rfl
      · by_cases h0 : ks = []
        · subst h0
          cases h
          show some (32 : UInt8) ≠ some 42
          decide
        · exact (keys_head h h0 _).1
  · have h23 : typ = 2 ∨ typ = 3 := by omega
    obtain ⟨n1, n2, n3, n4⟩ := valTyp_name (k := k)
    have hj : joined 46 (ls.map writeUEL) ++ ((if dim > 0 then [46] else []) ++ valTyp k ++ [32] ++ t) = joined 46 (ls.map writeUEL ++ [valTyp k]) ++ 32 :: t := by
      by_cases h0 : dim = 0
      · have hl : ls = [] := by
          rw [h0, List.length_map] at hlen
          exact List.length_eq_zero_iff.mp hlen
        subst hl
        rw [if_neg (by omega)]
        simp [joined]
      · rw [if_pos (by omega), joined_append 46 (by intro hc; rw [hc] at hlen; exact h0 hlen.symm) (by simp)]
        simp [joined]
    refine ⟨(if dim > 0 then [46] else []) ++ valTyp k ++ [32] ++ t, ?_, ?_, ?_⟩
    · unfold gBody
      rw [if_neg (by rcases h23 with h | h <;> rw [h] <;> decide), if_neg (by rcases h23 with h | h <;> rw [h] <;> decide),
        if_pos (by rcases h23 with h | h <;> rw [h] <;> decide), hat, Res.bind_ok, ht, Res.bind_ok, ho.delim]
      rfl
    · rw [hj, if_neg h1, fieldName_eq h23]
      have := entry_ok (ts := ls.map writeUEL ++ [valTyp k]) (ss := ls ++ [valTyp k]) (forall₂_append (keys_labels h) (.cons (label_bare n1 n2) .nil)) (by simp) hb
        (by intro c hc; cases hc; rfl)
      rw [List.length_append, hlen] at this
      exact this
    · refine ⟨?_, ?_, ?_⟩
      · intro hc
        rw [hj] at hc
        rcases List.mem_append.mp hc with hc | hc
        · refine joined_chars (d := 46) (by decide) (ts := ls.map writeUEL ++ [valTyp k]) ?_ 10 hc rfl
          intro x hx
          rcases List.mem_append.mp hx with hx | hx
          · exact keys_chars h x hx
          · rw [List.mem_singleton.mp hx]; exact n3
        · rcases List.mem_cons.mp hc with hc | hc
          · exact absurd hc (by decide)
          · exact ht10 10 hc rfl
      · by_cases h0 : ks = []
        · subst h0
          cases h
          have : dim = 0 := hk.symm
          rw [if_neg (by omega)]
          show (valTyp k ++ [32] ++ t).head? ≠ some 42
          cases hvt : valTyp k with
          | nil => exact absurd hvt n1
          | cons c x => rw [hvt] at n4; exact n4
        · exact (keys_head h h0 _).1
      · simp

/-- the entry for an element of a set -/
theorem entry_set {o : GOpt} (ho : GOptOk o) {a : Gx} {dim : Nat} {ks : List Int} {ls : List Str} (h : List.Forall₂ (QLabel a) ks ls) (hk : ks.length = dim) (h0 : dim ≠ 0) {vals : List Dbl}
    {t : Str} (ht : SetText a vals t) (hok : TextOk t) :
    ∃ s, gBody o a dim 0 vals 0 = .ok s ∧ IsEntry dim (joined o.delim (ls.map writeUEL) ++ s) (ls, t) ∧ LineOk (joined o.delim (ls.map writeUEL) ++ s) := by
  obtain ⟨v, r, hv, hcase⟩ := ht
  have hat : at0 vals ((0 : Nat) : Int) = .ok v := by rw [hv]; rfl
  have hlen : (ls.map writeUEL).length = dim := by rw [List.length_map, ← h.length_eq, hk]
  have hks : ks ≠ [] := by intro hc; rw [hc] at hk; exact h0 hk.symm
  have hls : ls.map writeUEL ≠ [] := by intro hc; rw [hc] at hlen; exact h0 hlen.symm
  rw [ho.delim]
  have done : ∀ s, IsBody s t → (∀ c, s.head? = some c → c = 32) → (∀ c ∈ s, c ≠ 10) → IsEntry dim (joined 46 (ls.map writeUEL) ++ s) (ls, t) ∧ LineOk (joined 46 (ls.map writeUEL) ++ s) := by
    intro s hb hh h10
    have := entry_ok (keys_labels h) hls hb hh
    rw [hlen] at this
    refine ⟨this, ?_, (keys_head h hks s).1, (keys_head h hks s).2⟩
    intro hc
    rcases List.mem_append.mp hc with hc | hc
    · exact keys_line h 10 hc rfl
    · exact h10 10 hc rfl
  have hge : ∀ c ∈ t, c ≠ 10 := by
    rintro c hc rfl
    exact absurd (hok.quotable.1 10 hc) (by decide)
  rcases hcase with ⟨q1, rfl⟩ | ⟨q1, n, b, k, q2, q3, _⟩
  · refine ⟨[], ?_, done [] body_none (by intro c hc; cases hc) (by intro c hc; cases hc)⟩
    unfold gBody
    rw [if_pos (by rfl), show (at0 vals 0 : Res Dbl) = .ok v from hat, Res.bind_ok, if_pos q1]
    rfl
  · refine ⟨writeQUELText t, ?_, ?_⟩
    · unfold gBody
      rw [if_pos (by rfl), show (at0 vals 0 : Res Dbl) = .ok v from hat, Res.bind_ok, if_neg q1, q2, Res.bind_ok, q3]
      rfl
    · unfold writeQUELText writeQuoted
      by_cases hsp : special tSpecial t = true
      · rw [if_neg (by rw [hsp]; decide)]
        have hq : OneQuote t := hok.quotable.2
        refine done _ (body_quoted hq) (by intro c hc; cases hc; rfl) ?_
        obtain ⟨_, h6⟩ := qq_ok hq
        intro c hc
        unfold writeUEL at hc
        simp only [List.mem_append, List.mem_cons, List.not_mem_nil, or_false] at hc
        rcases hc with rfl | (rfl | hc) | rfl
        · decide
        · rcases h6 with h | h <;> rw [h] <;> decide
        · exact hge c hc
        · rcases h6 with h | h <;> rw [h] <;> decide
      · have hsp' : special tSpecial t = false := by simpa using hsp
        have hno := special_false hsp'
        rw [if_pos (by rw [hsp']; decide)]
        refine done _ ?_ (by intro c hc; cases hc; rfl) ?_
        · by_cases hne : t = []
          · subst hne
            intro r hr
            obtain ⟨b1, r', b2, b3⟩ := body_none r hr
            exact ⟨b1, r', b2, b3⟩
          · refine body_bare hne ?_ ?_
            · intro c hc
              have h1 := hno c hc
              have h2 := hge c hc
              unfold tSpecial at h1
              simp only [Bool.or_eq_false_iff] at h1
              obtain ⟨⟨⟨⟨⟨⟨s1, s2⟩, s3⟩, s4⟩, _⟩, _⟩, _⟩ := h1
              unfold endsVal isBlank
              simp [s1, s2, s3, s4, h2]
            · intro c hc
              have hnot : ¬ (t.head? = some 39 ∨ t.head? = some 34 ∨ t.head? = some 46) := by
                intro hh
                obtain ⟨d, hd, hd2⟩ := hok.head hh
                have := hno d hd
                rcases hd2 with rfl | rfl | rfl | rfl | rfl | rfl | rfl <;> exact absurd this (by decide)
              have hc : t.head? = some c := hc
              rw [hc] at hnot
              refine ⟨?_, ?_, ?_⟩ <;> (rintro rfl; exact hnot (by simp))
        · intro c hc
          rcases List.mem_append.mp hc with hc | hc
          · rw [List.mem_singleton.mp hc]; decide
          · exact hge c hc

/-! ## records -/

theorem fin_of_expo {w : Dbl} (h : w.expo ≠ 2047) : ∃ p, w.fv = .fin p := by
  unfold Dbl.fv
  rw [if_neg h]
  exact ⟨_, rfl⟩

theorem fin_default {typ : Nat} {user : Int} {k : Nat} {w : Dbl} (h : defaultOf typ user k = some w) : ∃ p, w.fv = .fin p := by
  have hb : (varBounds user).1.expo ≠ 2047 ∧ (varBounds user).2.expo ≠ 2047 := by
    unfold varBounds
    split <;> exact ⟨by decide, by decide⟩
  refine fin_of_expo ?_
  unfold defaultOf at h
  split at h <;> cases h
  · decide
  · exact hb.1
  · exact hb.2
  · decide
  · decide

/-- the default values gdxdump compares with -/
theorem defs_eq {typ : Nat} {user : Int} {k : Nat} (ht : typ = 1 ∨ typ = 2 ∨ typ = 3) (hk : if typ = 1 then k = 0 else k < 5) (h3 : typ = 3 → k ≠ 2 ∧ k ≠ 3) :
    defaultOf typ user k = some ((subType typ user).1.getD k Dbl.zero) := by
  rcases ht with rfl | rfl | rfl
  · have hk : k = 0 := hk
    subst hk
    rfl
  · have hk : k < 5 := hk
    have he : (subType 2 user).1 = defVar SVTab.default (if user < 0 ∨ user > 9 then 5 else user) := rfl
    rw [he]
    by_cases hu : user < 0 ∨ user > 9
    · rw [if_pos hu]
      have hv : varBounds user = (SVTab.default.min, SVTab.default.pin) := by
        unfold varBounds
        split <;> first | rfl | omega
      interval_cases k
      · rfl
      · rfl
      · show some (varBounds user).1 = _
        rw [hv]
        rfl
      · show some (varBounds user).2 = _
        rw [hv]
        rfl
      · rfl
    · rw [if_neg hu]
      have h0 : 0 ≤ user := by omega
      have h9 : user ≤ 9 := by omega
      interval_cases user <;> interval_cases k <;> rfl
  · have hk : k < 5 := hk
    obtain ⟨h2, h3⟩ := h3 rfl
    have he : (subType 3 user).1 = defEqu SVTab.default (53 + if user < 0 ∨ user > 6 then 0 else user) := rfl
    rw [he]
    unfold defEqu
    split_ifs <;> interval_cases k <;> first | rfl | omega

theorem item_of {o : GOpt} (ho : GOptOk o) {a : Gx} {dim typ : Nat} {user : Int} (ht : typ = 1 ∨ typ = 2 ∨ typ = 3) {r : RecOut Int} (hr : ∀ v ∈ r.vals, GValOk o a v) {ls : List Str}
    (hl : List.Forall₂ (QLabel a) r.key ls) (hk : r.key.length = dim) {k : Nat} (hk5 : if typ = 1 then k = 0 else k < 5) (hn : k < r.vals.length) :
    ∃ ts es, ItemIs o a dim typ (subType typ user).1 (if typ = 1 then dim else dim + 1) r k ts es ∧ FieldOf o a typ (dim : Int) user r ls k es := by
  have hv : r.vals[k]? = some r.vals[k] := List.getElem?_eq_getElem hn
  generalize r.vals[k] = v at hv
  have hok := hr v (List.mem_of_getElem? hv)
  obtain ⟨q, hq, _⟩ := hok.fin
  obtain ⟨t, t1, t2, t3⟩ := val_word ho hok
  obtain ⟨s, s1, s2, s3⟩ := entry_val ho hl hk t1 t2 hv ht
  have hat : at0 r.vals (k : Int) = .ok v := at0_nat hv
  have hdim : ((dim : Int) = 0) = (dim = 0) := by simp
  have drop : dropped o dim typ (subType typ user).1 r.vals k =
      .ok (decide (o.filter = true ∧ ¬ (typ = 1 ∧ (dim : Int) = 0) ∧ ∃ w, defaultOf typ user k = some w ∧ v.fv = w.fv)) := by
    unfold dropped
    by_cases h3 : typ = 3 ∧ (k = 2 ∨ k = 3)
    · rw [if_neg (by
        rintro ⟨_, _, _, h⟩
        rcases h with h | h
        · exact h h3.1
        · omega), decide_eq_false]
      · rfl
      · rintro ⟨_, _, w, hw, _⟩
        obtain ⟨rfl, h3⟩ := h3
        rcases h3 with rfl | rfl <;> cases hw
    · have hd := defs_eq (user := user) ht hk5 (by intro h; constructor <;> (intro hh; exact h3 ⟨h, by simp [hh]⟩))
      by_cases hc : o.filter = true ∧ ¬ (typ = 1 ∧ dim = 0)
      · rw [if_pos (by
          refine ⟨fun h => hc.2 ⟨h.2, h.1⟩, ?_, hc.1, ?_⟩
          · rcases ht with rfl | rfl | rfl <;> decide
          · by_cases h : typ = 3
            · right
              constructor <;> (intro hh; exact h3 ⟨h, by simp [hh]⟩)
            · exact Or.inl h), hat, Res.bind_ok, Res.pure_eq]
        congr 1
        rw [Bool.eq_iff_iff, decide_eq_true_iff]
        obtain ⟨p, hp⟩ := fin_default hd
        rw [dblEq_iff hq hp, hdim]
        constructor
        · intro h
          exact ⟨hc.1, hc.2, _, hd, h⟩
        · rintro ⟨_, _, w, hw, h⟩
          rw [hd] at hw
          cases hw
          exact h
      · rw [if_neg (by
          rintro ⟨h1, _, h2, _⟩
          exact hc ⟨h2, fun h => h1 ⟨h.2, h.1⟩⟩), decide_eq_false]
        · rfl
        · rw [hdim]
          rintro ⟨h1, h2, _⟩
          exact hc ⟨h1, h2⟩
  by_cases hd : o.filter = true ∧ ¬ (typ = 1 ∧ (dim : Int) = 0) ∧ ∃ w, defaultOf typ user k = some w ∧ v.fv = w.fv
  · rw [decide_eq_true hd] at drop
    exact ⟨[], [], .drop drop, v, hv, Or.inl ⟨hd, rfl⟩⟩
  · rw [decide_eq_false hd] at drop
    exact ⟨_, _, .keep drop hl s1 s2 s3, v, hv, Or.inr ⟨hd, t, t3, rfl⟩⟩

theorem items_of {o : GOpt} (ho : GOptOk o) {a : Gx} {dim typ : Nat} {user : Int} (ht : typ = 1 ∨ typ = 2 ∨ typ = 3) {r : RecOut Int} (hr : ∀ v ∈ r.vals, GValOk o a v) {ls : List Str}
    (hl : List.Forall₂ (QLabel a) r.key ls) (hk : r.key.length = dim) : ∀ {ks : List Nat}, (∀ k ∈ ks, (if typ = 1 then k = 0 else k < 5) ∧ k < r.vals.length) →
    ∃ ts ess, ItemsAre o a dim typ (subType typ user).1 (if typ = 1 then dim else dim + 1) r ks ts ess.flatten ∧ List.Forall₂ (FieldOf o a typ (dim : Int) user r ls) ks ess
  | [], _ => ⟨[], [], .nil, .nil⟩
  | k :: ks, h => by
    obtain ⟨ts, es, i1, i2⟩ := item_of (user := user) ho ht hr hl hk (h k (by simp)).1 (h k (by simp)).2
    obtain ⟨ts', ess, j1, j2⟩ := items_of ho (user := user) ht hr hl hk (ks := ks) fun x hx => h x (by simp [hx])
    exact ⟨ts ++ ts', es :: ess, .cons i1 j1, .cons i2 j2⟩

theorem record_of {o : GOpt} (ho : GOptOk o) {a : Gx} (ha : Fresh a) {dim typ : Nat} {user : Int} (ht : typ ≤ 3) (h0 : dim = 0 → typ ≠ 0) {r : RecOut Int} (hr : CanDeclare o a typ r)
    (hin : InFile a r.key) (hk : r.key.length = dim) (hn : r.vals.length = dataTypSize typ) :
    ∃ ts es, ItemsAre o a dim typ (subType typ user).1 (if typ = 2 ∨ typ = 3 then dim + 1 else dim) r (gFields typ) ts es ∧ EntriesOf o a typ (dim : Int) user r es := by
  obtain ⟨ls, hls⟩ := forall₂_of (R := QLabel a) (l := r.key) fun e he => label_quote ha (hin e he)
  have hl : List.Forall₂ (LabelIs a) r.key ls := hls.imp fun _ _ h => h.1
  by_cases hs : typ = 0
  · subst hs
    obtain ⟨t, t1, t2⟩ := hr.text rfl
    obtain ⟨s, s1, s2, s3⟩ := entry_set ho hls hk (fun h => h0 h rfl) t1 t2
    have hd : dropped o dim 0 (subType 0 user).1 r.vals 0 = .ok false := by
      unfold dropped
      rw [if_neg (by rintro ⟨_, h, _⟩; exact h rfl)]
      rfl
    exact ⟨_, _, .cons (.keep hd hls s1 s2 s3) .nil, ls, hl, by rw [if_pos rfl]; exact ⟨t, t1, rfl⟩⟩
  · have ht3 : typ = 1 ∨ typ = 2 ∨ typ = 3 := by omega
    have hn' : ∀ k ∈ gFields typ, (if typ = 1 then k = 0 else k < 5) ∧ k < r.vals.length := by
      rw [hn]
      rcases ht3 with rfl | rfl | rfl <;> decide
    obtain ⟨ts, ess, i1, i2⟩ := items_of (user := user) ho ht3 (hr.vals hs) hls hk hn'
    refine ⟨ts, ess.flatten, ?_, ls, hl, ?_⟩
    · rcases ht3 with rfl | rfl | rfl <;> exact i1
    · rw [if_neg hs]
      refine ⟨ess, ?_, rfl⟩
      rcases ht3 with rfl | rfl | rfl <;> exact i2

theorem rows_of {o : GOpt} (ho : GOptOk o) {a : Gx} (ha : Fresh a) {dim typ : Nat} {user : Int} (ht : typ ≤ 3) (h0 : dim = 0 → typ ≠ 0) : ∀ {outs : List (RecOut Int)},
    (∀ r ∈ outs, CanDeclare o a typ r ∧ InFile a r.key ∧ r.key.length = dim ∧ r.vals.length = dataTypSize typ) →
    ∃ ts ess, RowsAre o a dim typ (subType typ user).1 (if typ = 2 ∨ typ = 3 then dim + 1 else dim) outs ts ess.flatten ∧ List.Forall₂ (EntriesOf o a typ (dim : Int) user) outs ess
  | [], _ => ⟨[], [], .nil, .nil⟩
  | r :: rs, h => by
    obtain ⟨h1, h2, h3, h4⟩ := h r (by simp)
    obtain ⟨ts, es, i1, i2⟩ := record_of (user := user) ho ha ht h0 h1 h2 h3 h4
    obtain ⟨ts', ess, j1, j2⟩ := rows_of ho ha (user := user) ht h0 (outs := rs) fun x hx => h x (by simp [hx])
    exact ⟨ts ++ ts', es :: ess, .cons i1 j1, .cons i2 j2⟩

/-! ## the header -/

theorem kind_text {typ : Nat} (ht : typ ≤ 3) (dim user : Int) :
    IsKind (if dim = 0 ∧ typ = dtPar then sScalar else (if (subType typ user).2 = [] then [] else (subType typ user).2 ++ [32]) ++ typName typ) (kindOf typ dim user) ∧
    (∀ n, labelCount (kindOf typ dim user) n = if typ = 2 ∨ typ = 3 then n + 1 else n) ∧
    LineOk (if dim = 0 ∧ typ = dtPar then sScalar else (if (subType typ user).2 = [] then [] else (subType typ user).2 ++ [32]) ++ typName typ) := by
  interval_cases typ
  · rw [if_neg (by rintro ⟨_, h⟩; cases h)]
    by_cases hu : user = 1
    · subst hu
      exact ⟨fun r => rfl, fun n => rfl, by decide, by decide, by decide⟩
    · have h1 : (subType 0 user).2 = [] := if_neg hu
      have h2 : kindOf 0 dim user = [[83, 101, 116]] := if_neg hu
      rw [h1, h2]
      exact ⟨fun r => rfl, fun n => rfl, by decide, by decide, by decide⟩
  · by_cases hd : dim = 0
    · subst hd
      rw [show (if (0 : Int) = 0 ∧ 1 = dtPar then sScalar else (if (subType 1 user).2 = [] then [] else (subType 1 user).2 ++ [32]) ++ typName 1) = sScalar from if_pos ⟨rfl, rfl⟩]
      exact ⟨fun r => rfl, fun n => rfl, by decide, by decide, by decide⟩
    · rw [if_neg (by rintro ⟨h, _⟩; exact hd h)]
      rw [show (subType 1 user).2 = [] from rfl]
      have h2 : kindOf 1 dim user = [[80, 97, 114, 97, 109, 101, 116, 101, 114]] := if_neg hd
      rw [h2]
      exact ⟨fun r => rfl, fun n => rfl, by decide, by decide, by decide⟩
  · rw [if_neg (by rintro ⟨_, h⟩; cases h)]
    by_cases hu : user < 0 ∨ user > 9
    · have h1 : (subType 2 user).2 = varTyp 5 := by
        show (if (if user < 0 ∨ user > 9 then 5 else user) = 0 then [] else varTyp (if user < 0 ∨ user > 9 then 5 else user)) = varTyp 5
        rw [if_pos hu]
        rfl
      have h2 : kindOf 2 dim user = [[102, 114, 101, 101], [86, 97, 114, 105, 97, 98, 108, 101]] := by
        show (if user = 0 then _ else _) = _
        rw [if_neg (by omega)]
        unfold varWord
        split <;> first | rfl | omega
      rw [h1, h2]
      exact ⟨fun r => rfl, fun n => rfl, by decide, by decide, by decide⟩
    · have h0 : 0 ≤ user := by omega
      have h9 : user ≤ 9 := by omega
      interval_cases user <;> exact ⟨fun r => rfl, fun n => rfl, by decide, by decide, by decide⟩
  · rw [if_neg (by rintro ⟨_, h⟩; cases h)]
    by_cases hu : user = 6
    · subst hu
      exact ⟨fun r => rfl, fun n => rfl, by decide, by decide, by decide⟩
    · have h1 : (subType 3 user).2 = [] := by
        show (if (if user < 0 ∨ user > 6 then 0 else user) = 6 then sLogic else []) = []
        rw [if_neg]
        split <;> omega
      have h2 : kindOf 3 dim user = [[69, 113, 117, 97, 116, 105, 111, 110]] := if_neg hu
      rw [h1, h2]
      exact ⟨fun r => rfl, fun n => rfl, by decide, by decide, by decide⟩

/-- the explanatory text of the symbol -/
theorem text_of {s : Str} (hq : Quotable s) {p : Prop} {paren : Bool} (hp : p → paren = true) :
    ∃ tx, IsText p (if s = [] then [] else writeQText s paren) tx ∧ (∀ c, (if s = [] then [] else writeQText s paren).head? = some c → c = 32) ∧
      (10 : UInt8) ∉ (if s = [] then [] else writeQText s paren) ∧ ∃ i j, s = List.replicate i 32 ++ tx ++ List.replicate j 32 := by
  by_cases h0 : s = []
  · simp only [if_pos h0]
    exact ⟨[], text_none, (fun c hc => by cases hc), (by simp), 0, 0, by rw [h0]; rfl⟩
  · simp only [if_neg h0]
    have hge : (10 : UInt8) ∉ s := fun hc => absurd (hq.1 10 hc) (by decide)
    have hone : OneQuote s := hq.2
    have hquo : ∃ tx, IsText p ([32] ++ writeUEL s) tx ∧ (∀ c, ([32] ++ writeUEL s).head? = some c → c = 32) ∧ (10 : UInt8) ∉ [32] ++ writeUEL s ∧
        ∃ i j, s = List.replicate i 32 ++ tx ++ List.replicate j 32 := by
      refine ⟨s, text_quoted hone, (fun c hc => by cases hc; rfl), ?_, 0, 0, by simp⟩
      obtain ⟨_, h6⟩ := qq_ok hone
      intro hc
      unfold writeUEL at hc
      simp only [List.mem_append, List.mem_cons, List.not_mem_nil, or_false] at hc
      rcases hc with hc | (hc | hc) | hc
      · exact absurd hc (by decide)
      · rcases h6 with h | h <;> rw [h] at hc <;> exact absurd hc (by decide)
      · exact hge hc
      · rcases h6 with h | h <;> rw [h] at hc <;> exact absurd hc (by decide)
    have hbare : (∀ c ∈ s, qSpecial c = false) → (p → (skip s).head? ≠ some 40) → ∃ tx, IsText p ([32] ++ s) tx ∧ (∀ c, ([32] ++ s).head? = some c → c = 32) ∧ (10 : UInt8) ∉ [32] ++ s ∧
        ∃ i j, s = List.replicate i 32 ++ tx ++ List.replicate j 32 := by
      intro hs hpp
      refine ⟨trim s, text_bare ?_ hpp, (fun c hc => by cases hc; rfl), ?_, trim_spec hq.1⟩
      · intro c hc
        have := hs c hc
        unfold qSpecial at this
        simp only [Bool.or_eq_false_iff, beq_eq_false_iff_ne] at this
        tauto
      · intro hc
        rcases List.mem_append.mp hc with hc | hc
        · exact absurd (List.mem_singleton.mp hc) (by decide)
        · exact hge hc
    unfold writeQText writeQuoted
    cases paren with
    | false =>
      rw [if_neg (by decide)]
      by_cases hsp : special qSpecial s = true
      · simp only [hsp, Bool.not_true, Bool.and_false, Bool.false_eq_true, if_false]
        exact hquo
      · have hsp' : special qSpecial s = false := by simpa using hsp
        simp only [hsp', Bool.not_false, Bool.and_true, if_true]
        exact hbare (special_false hsp') fun h => by cases hp h
    | true =>
      rw [if_pos rfl]
      have hskip : s.dropWhile (· == 32) = skip s := by
        unfold skip
        have hmem : ∀ c ∈ s, (c == 32) = isBlank c := by
          intro c hc
          unfold isBlank
          have : c ≠ 10 := fun h => hge (h ▸ hc)
          simp [this]
        clear hquo hbare hone h0 hge hq
        induction s with
        | nil => rfl
        | cons c s ih =>
          have hc := hmem c (by simp)
          by_cases hb : isBlank c = true
          · rw [List.dropWhile_cons_of_pos (by rw [hc]; exact hb), List.dropWhile_cons_of_pos hb]
            exact ih fun d hd => hmem d (by simp [hd])
          · rw [List.dropWhile_cons_of_neg (by rw [hc]; exact hb), List.dropWhile_cons_of_neg hb]
      rw [hskip]
      by_cases hg : ((skip s).head? != some 40 && !special qSpecial (skip s)) = true
      · rw [if_pos hg]
        simp only [Bool.and_eq_true, bne_iff_ne, ne_eq, Bool.not_eq_true'] at hg
        refine hbare ?_ fun _ => hg.1
        intro c hc
        have hno := special_false hg.2
        rw [← List.takeWhile_append_dropWhile (p := isBlank) (l := s)] at hc
        rcases List.mem_append.mp hc with hc' | hc'
        · have hb : isBlank c = true := by
            clear hc hno hg hskip hquo hbare hone h0 hge hq
            induction s with
            | nil => cases hc'
            | cons d s ih =>
              by_cases hd : isBlank d = true
              · rw [List.takeWhile_cons_of_pos hd] at hc'
                rcases List.mem_cons.mp hc' with rfl | hc'
                · exact hd
                · exact ih hc'
              · rw [List.takeWhile_cons_of_neg hd] at hc'
                cases hc'
          unfold isBlank at hb
          rw [Bool.or_eq_true, beq_iff_eq, beq_iff_eq] at hb
          rcases hb with rfl | rfl <;> decide
        · exact hno c hc'
      · rw [if_neg hg]
        exact hquo

theorem sepText_line {sep : Str} {ts : List Str} (h : ∀ t ∈ ts, LineOk t) (hs : (10 : UInt8) ∉ sep ∨ ts.length ≤ 1) : (10 : UInt8) ∉ sepText sep ts := by
  cases ts with
  | nil => simp [sepText]
  | cons t ts =>
    unfold sepText
    intro hc
    rcases List.mem_append.mp hc with hc | hc
    · exact (h t (by simp)).no10 hc
    · rcases hs with hs | hs
      · obtain ⟨x, hx, hxc⟩ := List.mem_flatten.mp hc
        obtain ⟨y, hy, rfl⟩ := List.mem_map.mp hx
        rcases List.mem_append.mp hxc with hxc | hxc
        · exact hs hxc
        · exact (h y (by simp [hy])).no10 hxc
      · cases ts with
        | nil => cases hc
        | cons _ _ => simp at hs

/-- the header -/
theorem head_of {a : Gx} {nr : Int} {s : Sym} (hs : HeadOk a nr s) (hi : symbolInfo a nr = ⟨true, s.name, s.dim, s.typ⟩) (hx : (symbolInfoX a nr).expl = s.expl) {sub : Str} :
    ∃ ds, gHead a nr sub = .ok (a, (if s.dim = 0 ∧ s.typ = dtPar then sScalar else (if sub = [] then [] else sub ++ [32]) ++ typName s.typ) ++ 32 :: (s.name ++ (domText ds ++
        (if s.expl = [] then [] else writeQText s.expl (decide (s.dim = 0)))))) ∧
      List.Forall₂ (DomNamed a) (s.domSyms.getD (List.replicate s.dim.toNat 0)) ds ∧ (∀ d ∈ ds, IsDom d) ∧ ds.length = s.dim.toNat := by
  have hnm : ∃ l, a.names = some l := by
    have := hs.sym
    unfold Gx.symAt at this
    cases hn : a.names with
    | none => rw [hn] at this; cases this
    | some l => exact ⟨l, rfl⟩
  obtain ⟨l, hnm⟩ := hnm
  have hget : symbolGetDomain a nr = .ok (a, some (s.domSyms.getD (List.replicate s.dim.toNat 0))) := by
    unfold symbolGetDomain
    rw [hnm, hs.sym]
    rfl
  have hlen : (s.domSyms.getD (List.replicate s.dim.toNat 0)).length = s.dim.toNat := by
    cases hd : s.domSyms with
    | none => simp
    | some l => exact (hs.doms l hd).1
  have hall : ∀ d ∈ s.domSyms.getD (List.replicate s.dim.toNat 0), d ≤ 0 ∨ ∃ t, a.symAt d = some t ∧ isGoodIdent t.name = true := by
    cases hd : s.domSyms with
    | none =>
      intro d h
      left
      rw [Option.getD_none] at h
      rw [List.eq_of_mem_replicate h]
    | some l => exact (hs.doms l hd).2
  generalize s.domSyms.getD (List.replicate s.dim.toNat 0) = ns at hget hlen hall
  have hds : List.Forall₂ (DomNamed a) ns (domIds a ns) ∧ ∀ d ∈ domIds a ns, IsDom d := by
    clear hget hlen
    unfold domIds
    induction ns with
    | nil => exact ⟨.nil, by intro d hd; cases hd⟩
    | cons n ns ih =>
      obtain ⟨i1, i2⟩ := ih fun d hd => hall d (by simp [hd])
      have key : DomNamed a n (if n ≤ 0 then star else (symbolInfo a n).name) ∧ IsDom (if n ≤ 0 then star else (symbolInfo a n).name) := by
        by_cases hn : n ≤ 0
        · unfold DomNamed
          rw [if_pos hn, if_pos hn]
          exact ⟨rfl, Or.inl rfl⟩
        · unfold DomNamed
          rw [if_neg hn, if_neg hn]
          rcases hall n (by simp) with h | ⟨t, t1, t2⟩
          · exact absurd h hn
          · have : (symbolInfo a n).name = t.name := by
              unfold symbolInfo
              rw [if_neg (by omega), t1]
            rw [this]
            exact ⟨⟨t, t1, rfl⟩, Or.inr t2⟩
      rw [List.map_cons]
      refine ⟨.cons key.1 i1, ?_⟩
      intro d hd
      rcases List.mem_cons.mp hd with rfl | hd
      · exact key.2
      · exact i2 d hd
  have hna : s.typ ≠ dtAlias := by
    have := hs.typ
    unfold dtAlias
    omega
  have hdl : (domIds a ns).length = s.dim.toNat := by rw [← hds.1.length_eq, hlen]
  refine ⟨domIds a ns, ?_, hds.1, hds.2, hdl⟩
  unfold gHead
  rw [hi]
  dsimp only
  rw [hx, if_neg hna]
  by_cases hd : s.dim ≥ 1
  · rw [if_pos hd, hget]
    simp only [Res.bind_ok, Option.getD_some]
    have htake : (ns ++ List.replicate 20 0).take s.dim.toNat = ns := by
      rw [← hlen, List.take_left]
    rw [htake, decide_eq_false (by omega)]
    have hne : domIds a ns ≠ [] := by
      intro hc
      rw [hc] at hdl
      simp at hdl
      omega
    unfold domText
    rw [if_neg hne]
    simp [Res.pure_eq]
  · have h0 : s.dim = 0 := by
      have := hs.dim
      omega
    rw [if_neg hd, decide_eq_true h0]
    have hne : domIds a ns = [] := by
      rw [h0] at hdl
      exact List.length_eq_zero_iff.mp hdl
    unfold domText
    rw [if_pos hne]
    simp [Res.pure_eq]

/-! ## the declaration -/

/-- what stands in the file under a number that is no alias -/
theorem decl_target {z : Cz} {a : Gx} {nr : Int} {s : Sym} (hs : a.symAt nr = some s) (ht : s.typ ≤ 3) {d : SymDesc} {xs : List RawEntry} (h : HoldsSym z a nr d xs) :
    d.typ = s.typ ∧ d.dim = s.dim ∧ s.dataCount = xs.length := by
  obtain ⟨m, ld, syms, n1, n2, n3, n4⟩ := h.sym
  obtain ⟨sy, d1, _, d3⟩ := ld.data
  obtain ⟨lo, hi, hst⟩ := d3.data
  obtain ⟨syms', m1, m2⟩ := d3.names
  rw [n1] at m1
  cases m1
  have hat : syms[(nr - 1).toNat]? = some s := by
    unfold Gx.symAt at hs
    rw [n1] at hs
    simp only at hs
    rw [if_pos ⟨n2, n3⟩] at hs
    exact hs
  have ha1 : at1 syms nr = .ok s := by
    have : nr = (((nr - 1).toNat : Nat) : Int) + 1 := by omega
    rw [this]
    exact at1_nat hat
  unfold readTarget at n4
  rw [if_neg (by omega), ha1, Res.bind_ok, if_neg (by unfold dtAlias; omega)] at n4
  injection n4 with n4
  injection n4 with n4
  have hm : (nr - 1).toNat = m := by omega
  rw [hm, m2] at hat
  cases hat
  refine ⟨d1.typ.symm, d1.dim.symm, ?_⟩
  rw [hst.cnt]
  simp

theorem ends_comments (H : Str) (cs : List Str) : ∃ t0, [10] ++ H ++ emptyList ++ (cs.map fun s => [42, 32] ++ s ++ [10]).flatten = t0 ++ [10] := by
  rcases List.eq_nil_or_concat cs with rfl | ⟨cs, c, rfl⟩
  · exact ⟨[10] ++ H ++ [32, 47, 32, 47, 59], by simp [emptyList]⟩
  · exact ⟨[10] ++ H ++ emptyList ++ (cs.map fun s => [42, 32] ++ s ++ [10]).flatten ++ ([42, 32] ++ c), by simp⟩

/-- the declaration of a symbol, from whatever state the object is in between two symbols -/
theorem decl_full {o : GOpt} (ho : GOptOk o) {z : Cz} (hz : z.Good) {a : Gx} (ha : Fresh a) {nr : Int} {s : Sym} {cs : List Str} (hs : DeclOk a nr s cs) {d : SymDesc} {xs : List RawEntry}
    (h : HoldsSym z a nr d xs) (hr : ∀ outs, Delivered a.rsv (acrOf a) d xs outs → ∀ r ∈ outs, CanDeclare o a s.typ r) {fuel : Nat} (hf : xs.length < fuel) (hfc : cs.length < fuel) {g : Gx}
    (hgf : g.fixed = a.fixed) (hgm : Reading g.mode) :
    ∃ outs ess g' t D, Delivered a.rsv (acrOf a) d xs outs ∧ List.Forall₂ (EntriesOf o a s.typ s.dim s.userInfo) outs ess ∧ writeSymbol o z fuel g nr = .ok (g', t) ∧ (g'.fixed = a.fixed ∧ Reading g'.mode ∧ ∃ t0, t = t0 ++ [10]) ∧
      decl (uncomment true false t) = some (D, [10]) ∧ D.kind = kindOf s.typ s.dim s.userInfo ∧ D.name = s.name ∧
      List.Forall₂ (DomNamed a) (s.domSyms.getD (List.replicate s.dim.toNat 0)) D.doms ∧ (∃ i j, s.expl = List.replicate i 32 ++ D.text ++ List.replicate j 32) ∧
      D.data = ess.flatten := by
  obtain ⟨k1, k2, k3⟩ := decl_target hs.sym hs.typ h
  obtain ⟨m, ld, tg⟩ := h.sym
  obtain ⟨outs, o1, _⟩ := ld.reads hz tg
  obtain ⟨outs', o1', ⟨g1, g2, s1, s2, s3, _⟩, _⟩ := (loaded_idle ld hgf).reads hz (targets_fixed tg hgf)
  have hrsv : (idle g).rsv = a.rsv := congrArg Fixed.rsv hgf
  have hacf : acrOf (idle g) = acrOf a := by
    have e1 : (idle g).acros = a.acros := congrArg Fixed.acros hgf
    have e2 : (idle g).acrNaN = a.acrNaN := congrArg Fixed.nan hgf
    unfold acrOf plainRemap
    have e3 : (idle g).sv = a.sv := congrArg Fixed.sv hgf
    simp only [e1, e2, e3]
  rw [hrsv, hacf] at o1'
  have hou := Delivered.unique ld.sv o1 o1'
  subst hou
  have hgn : g.nrMapped = 0 := (congrArg Fixed.nrm hgf).trans ha.nrm
  rw [← rawStart_idle hgm hgn] at s1
  have hsat : ∀ n, g.symAt n = a.symAt n := fun n => by unfold Gx.symAt; rw [show g.names = a.names from congrArg Fixed.names hgf]
  have hsg : DeclOk g nr s cs := by
    refine ⟨⟨by rw [hsat]; exact hs.sym, hs.typ, hs.name, hs.dim, ?_, hs.expl⟩, hs.coms, hs.lines, hs.noset⟩
    intro l hl
    obtain ⟨l1, l2⟩ := hs.doms l hl
    refine ⟨l1, fun d hd => ?_⟩
    rw [hsat]
    exact l2 d hd
  obtain ⟨hall, hlen⟩ := vals_length h o1
  have hnr : nr ≠ 0 := by
    rintro rfl
    have := hs.sym
    unfold Gx.symAt at this
    split at this
    · rw [if_neg (by omega)] at this
      cases this
    · cases this
  have hi : symbolInfo g nr = ⟨true, s.name, s.dim, s.typ⟩ := by
    unfold symbolInfo
    rw [if_neg hnr, hsg.sym]
  have hx : symbolInfoX g nr = ⟨true, if s.dim = 0 then 1 else s.dataCount, s.userInfo, s.expl⟩ := by
    unfold symbolInfoX
    rw [if_neg hnr, hsg.sym]
  obtain ⟨dn, hdn⟩ := Int.eq_ofNat_of_zero_le hs.dim.1
  obtain ⟨ds, h1, h2, h3, h4⟩ := head_of hsg.toHeadOk hi (by rw [hx]) (sub := (subType s.typ s.userInfo).2)
  have hdna : DomNamed g = DomNamed a := by
    funext n t
    unfold DomNamed
    rw [hsat]
  rw [hdna] at h2
  obtain ⟨tx, x1, x2, x3, x4⟩ := text_of hs.expl (p := ds = []) (paren := decide (s.dim = 0)) (by
    intro hds
    rw [hds] at h4
    have := hs.dim
    simp at h4
    simp
    omega)
  obtain ⟨q1, q2, q3⟩ := kind_text hs.typ s.dim s.userInfo
  obtain ⟨ts, ess, r1, r2⟩ := rows_of (user := s.userInfo) ho ha (dim := dn) hs.typ (fun h0 => (hs.noset (by rw [hdn, h0]; rfl)).1) (outs := outs) (fun r hr' =>
    ⟨hr outs o1 r hr', (hall r hr').2.2, by rw [(hall r hr').2.1, k2, hdn]; rfl, by rw [(hall r hr').1, k1]⟩)
  obtain ⟨e1, e2⟩ := r1.entries
  have hcom : comments g nr fuel 1 = .ok (cs.map fun s => [42, 32] ++ s ++ [10]).flatten := by
    have := comments_ok hsg.sym hs.coms fuel 0 (by omega) (by omega)
    simpa using this
  have f1 := (dataReadRawStart_fix (by rw [show g.nextAuto = a.nextAuto from congrArg Fixed.auto hgf]; exact ha.auto) hgn s1).1.trans hgf
  have ha1 : g1.nextAuto ≤ 0 := by rw [RFix.auto f1]; exact ha.auto
  have hn1 : g1.nrMapped = 0 := (congrArg Fixed.nrm f1).trans ha.nrm
  have hrow := gRows_ok (o := o) (g0 := a) (first := true) s2 f1 ha1 hn1 r1 (f := fuel) (by omega)
  have hfix2 := delivers_fixed s2 ha1 hn1
  have hdone := dataReadDone_plain (g := g2) (by rw [s3]; simp) ((congrArg Fixed.nrm hfix2).trans hn1)
  generalize hkt : (if s.dim = 0 ∧ s.typ = dtPar then sScalar else (if (subType s.typ s.userInfo).2 = [] then [] else (subType s.typ s.userInfo).2 ++ [32]) ++ typName s.typ) = kt at h1 q1 q3
  generalize htt : (if s.expl = [] then [] else writeQText s.expl (decide (s.dim = 0))) = tt at h1 x1 x2 x3
  have hlab : labelCount (kindOf s.typ s.dim s.userInfo) ds.length = if s.typ = 2 ∨ s.typ = 3 then dn + 1 else dn := by
    rw [q2, h4, hdn]
    rfl
  -- the header is one line
  have hline : (10 : UInt8) ∉ kt ++ 32 :: (s.name ++ (domText ds ++ tt)) := by
    intro hc
    have hid : ∀ {w : Str}, isGoodIdent w = true → (10 : UInt8) ∉ w := fun hw hc => (name_blank ((ident_chars hw).2 10 hc)).2.2.2 rfl
    rcases List.mem_append.mp hc with hc | hc
    · exact q3.no10 hc
    · rcases List.mem_cons.mp hc with hc | hc
      · exact absurd hc (by decide)
      · rcases List.mem_append.mp hc with hc | hc
        · exact hid hs.name hc
        · rcases List.mem_append.mp hc with hc | hc
          · unfold domText at hc
            split at hc
            · cases hc
            · rcases List.mem_append.mp hc with hc | hc
              · rcases List.mem_append.mp hc with hc | hc
                · exact absurd (List.mem_singleton.mp hc) (by decide)
                · refine joined_chars (d := 44) (by decide) (ts := ds) ?_ 10 hc rfl
                  rintro w hw c hc' rfl
                  rcases h3 w hw with rfl | hw'
                  · exact absurd (List.mem_singleton.mp hc') (by decide)
                  · exact hid hw' hc'
              · exact absurd (List.mem_singleton.mp hc) (by decide)
          · exact x3 hc
  have hhead : (kt ++ 32 :: (s.name ++ (domText ds ++ tt))).head? ≠ some 42 := by
    cases hk : kt with
    | nil => exact absurd hk q3.ne
    | cons c q =>
      have := q3.head
      rw [hk] at this
      exact this
  generalize hH : kt ++ 32 :: (s.name ++ (domText ds ++ tt)) = H at h1 hline hhead
  have hdecl : ∀ {x r' : Str} {es : List (List Str × Str)}, dataList (if s.typ = 2 ∨ s.typ = 3 then dn + 1 else dn) x = some (es, 59 :: r') →
      decl (10 :: (H ++ 32 :: 47 :: x)) = some (⟨kindOf s.typ s.dim s.userInfo, s.name, ds, tx, es⟩, r') := by
    intro x r' es hx
    have := decl_ok q1 hs.name h3 x1 x2 (by rw [hlab]; exact hx)
    rw [← hH]
    simpa using this
  have hsep : gSep dn s.typ = [44, 32, 10] ∨ gSep dn s.typ = [44, 32] ∧ dn = 0 ∧ (s.typ = 2 ∨ s.typ = 3) := by
    unfold gSep
    split
    · exact Or.inl rfl
    · rename_i hc
      right
      refine ⟨rfl, ?_, ?_⟩
      · by_contra hh
        exact hc (Or.inr hh)
      · by_contra hh
        exact hc (Or.inl ⟨fun h => hh (Or.inl h), fun h => hh (Or.inr h)⟩)
  have hsep44 : ∃ q, gSep dn s.typ = 44 :: q ∧ ∀ c ∈ q, isBlank c = true := by
    rcases hsep with h | h
    · rw [h]; exact ⟨[32, 10], rfl, by decide⟩
    · rw [h.1]; exact ⟨[32], rfl, by decide⟩
  have hdl := dataList_ok hsep44 e1 [59, 10]
  have hsf : sepFrom (gSep dn s.typ) true ts = sepText (gSep dn s.typ) ts := rfl
  rw [hsf] at hrow
  -- what is written
  have hws : ∀ t, (if (if s.dim = 0 then 1 else s.dataCount) = 0 then t = [10] ++ H ++ emptyList ++ (cs.map fun s => [42, 32] ++ s ++ [10]).flatten
      else t = [10] ++ H ++ ([32, 47] ++ (if s.dim > 0 then [10] else [])) ++ (cs.map fun s => [42, 32] ++ s ++ [10]).flatten ++ sepText (gSep dn s.typ) ts ++ [32, 47, 59, 10]) →
      ∃ g', writeSymbol o z fuel g nr = .ok (g', t) ∧ g'.fixed = a.fixed ∧ Reading g'.mode := by
    intro t ht
    unfold writeSymbol
    rw [hi, hx]
    dsimp only
    rw [if_pos ho.hdr, h1]
    simp only [Res.bind_ok, Res.pure_eq]
    have hna : s.typ ≠ dtAlias := by
      have := hs.typ
      unfold dtAlias
      omega
    by_cases hrec : (if s.dim = 0 then 1 else s.dataCount) = 0
    · rw [if_pos hrec] at ht
      rw [if_pos ⟨hrec, ho.data⟩, if_neg (by
        rintro ⟨hh, _⟩
        rw [if_pos hh] at hrec
        cases hrec), if_pos ⟨ho.hdr, hna⟩, hcom]
      exact ⟨g, by rw [ht]; rfl, hgf, hgm⟩
    · rw [if_neg hrec] at ht
      rw [if_neg (fun hh => hrec hh.1), hcom]
      simp only [Res.bind_ok]
      rw [if_neg (by rw [ho.data]; decide), s1]
      have hdn' : s.dim.toNat = dn := by rw [hdn]; rfl
      simp only [Res.bind_ok, hdn', hrow, hdone]
      rw [ht, if_pos ⟨ho.hdr, ho.data⟩, if_pos ho.hdr]
      refine ⟨{ g2 with sort := none, cur := .none, mode := .rInit }, ?_, hfix2.trans f1, Or.inl rfl⟩
      simp [badLine]
  have hunc : ∀ r, uncomment true false (10 :: (H ++ 32 :: 47 :: r)) = 10 :: uncomment true false (H ++ 32 :: 47 :: r) := fun r => rfl
  have hH42 : ∀ q : Str, (H ++ q).head? ≠ some 42 := by
    intro q
    cases hq : H with
    | nil =>
      rw [← hH] at hq
      simp at hq
    | cons c w => rw [hq] at hhead; exact hhead
  suffices hsuff : ∃ g' t, writeSymbol o z fuel g nr = .ok (g', t) ∧ (g'.fixed = a.fixed ∧ Reading g'.mode ∧ ∃ t0, t = t0 ++ [10]) ∧ decl (uncomment true false t) = some (⟨kindOf s.typ s.dim s.userInfo, s.name, ds, tx, ess.flatten⟩, [10]) by
    obtain ⟨g', t, w1, w0, w2⟩ := hsuff
    refine ⟨outs, ess, g', t, _, o1, ?_, w1, w0, w2, rfl, rfl, h2, x4, rfl⟩
    rw [hdn]
    exact r2
  by_cases hrec : (if s.dim = 0 then 1 else s.dataCount) = 0
  · obtain ⟨g', hw, hw2, hw3⟩ := hws _ (by rw [if_pos hrec])
    refine ⟨g', _, hw, ⟨hw2, hw3, ends_comments _ _⟩, ?_⟩
    have h0 : outs = [] := by
      by_cases hd : s.dim = 0
      · rw [if_pos hd] at hrec
        cases hrec
      · rw [if_neg hd, k3] at hrec
        exact List.length_eq_zero_iff.mp (by omega)
    subst h0
    cases r2
    have := unc_line (s := H ++ [32, 47, 32, 47, 59]) (by
      intro hc
      rcases List.mem_append.mp hc with hc | hc
      · exact hline hc
      · revert hc; decide) true (fun _ => hH42 _) ((cs.map fun s => [42, 32] ++ s ++ [10]).flatten ++ [])
    rw [unc_comments hs.lines] at this
    have he : uncomment true false ([10] ++ H ++ emptyList ++ (cs.map fun s => [42, 32] ++ s ++ [10]).flatten) = 10 :: (H ++ 32 :: 47 :: [32, 47, 59, 10]) := by
      have e : [10] ++ H ++ emptyList ++ (cs.map fun s => [42, 32] ++ s ++ [10]).flatten = 10 :: (H ++ [32, 47, 32, 47, 59] ++ 10 :: ((cs.map fun s => [42, 32] ++ s ++ [10]).flatten ++ [])) := by
        simp [emptyList]
      rw [e]
      show 10 :: uncomment true false _ = _
      rw [this]
      simp [uncomment]
    rw [he]
    exact hdecl rfl
  · obtain ⟨g', hw, hw2, hw3⟩ := hws _ (by rw [if_neg hrec])
    refine ⟨g', _, hw, ⟨hw2, hw3, _, (List.append_assoc _ [32, 47, 59] [10]).symm⟩, ?_⟩
    by_cases hd : s.dim = 0
    · obtain ⟨_, hcs⟩ := hs.noset hd
      subst hcs
      rw [if_neg (by omega)]
      have hdl' : (10 : UInt8) ∉ sepText (gSep dn s.typ) ts := by
        refine sepText_line e2 ?_
        have hdn0 : dn = 0 := by omega
        by_cases ht : s.typ = 2 ∨ s.typ = 3
        · left
          rcases hsep with h | h
          · unfold gSep at h
            rw [if_neg (by
              rintro (hh | hh)
              · rcases ht with h | h
                · exact hh.1 h
                · exact hh.2 h
              · exact hh hdn0)] at h
            cases h
          · rw [h.1]; decide
        · right
          have hty : s.typ = 1 := by
            have := hs.typ
            have := (hs.noset hd).1
            omega
          have hone := h.one (by rw [k2]; exact hd)
          rw [e1.length_eq]
          rw [← hlen] at hone
          obtain ⟨r, rfl⟩ := List.length_eq_one_iff.mp hone
          cases r2 with
          | cons r2 rr =>
            cases rr
            obtain ⟨ls, _, hh⟩ := r2
            rw [hty, if_neg (by decide), if_pos rfl] at hh
            obtain ⟨ess', f1, rfl⟩ := hh
            cases f1 with
            | cons f1 ff =>
              cases ff
              obtain ⟨v, _, f1⟩ := f1
              rcases f1 with ⟨_, rfl⟩ | ⟨_, t, _, rfl⟩ <;> simp
      have he : uncomment true false ([10] ++ H ++ ([32, 47] ++ []) ++ (([] : List Str).map fun s => [42, 32] ++ s ++ [10]).flatten ++ sepText (gSep dn s.typ) ts ++ [32, 47, 59, 10]) =
          10 :: (H ++ 32 :: 47 :: (sepText (gSep dn s.typ) ts ++ 32 :: 47 :: [59, 10])) := by
        have := unc_line (s := H ++ [32, 47] ++ sepText (gSep dn s.typ) ts ++ [32, 47, 59]) (by
          intro hc
          rcases List.mem_append.mp hc with hc | hc
          · rcases List.mem_append.mp hc with hc | hc
            · rcases List.mem_append.mp hc with hc | hc
              · exact hline hc
              · revert hc; decide
            · exact hdl' hc
          · revert hc; decide) true (fun _ => by rw [List.append_assoc, List.append_assoc]; exact hH42 _) []
        have e : [10] ++ H ++ ([32, 47] ++ []) ++ (([] : List Str).map fun s => [42, 32] ++ s ++ [10]).flatten ++ sepText (gSep dn s.typ) ts ++ [32, 47, 59, 10] =
            10 :: (H ++ [32, 47] ++ sepText (gSep dn s.typ) ts ++ [32, 47, 59] ++ 10 :: []) := by simp
        rw [e]
        show 10 :: uncomment true false _ = _
        rw [this]
        simp [uncomment]
      rw [he]
      exact hdecl hdl
    · have hpos : s.dim > 0 := by
        have := hs.dim
        omega
      rw [if_pos hpos]
      have hs10 : gSep dn s.typ = [44, 32, 10] := by
        rcases hsep with h | h
        · exact h
        · omega
      have he : uncomment true false ([10] ++ H ++ ([32, 47] ++ [10]) ++ (cs.map fun s => [42, 32] ++ s ++ [10]).flatten ++ sepText (gSep dn s.typ) ts ++ [32, 47, 59, 10]) =
          10 :: (H ++ 32 :: 47 :: (10 :: (sepText (gSep dn s.typ) ts ++ 32 :: 47 :: [59, 10]))) := by
        have := unc_line (s := H ++ [32, 47]) (by
          intro hc
          rcases List.mem_append.mp hc with hc | hc
          · exact hline hc
          · revert hc; decide) true (fun _ => hH42 _) ((cs.map fun s => [42, 32] ++ s ++ [10]).flatten ++ (sepText [44, 32, 10] ts ++ [32, 47, 59, 10]))
        rw [unc_comments hs.lines, unc_data fun t ht => ⟨(e2 t ht).no10, (e2 t ht).head, (e2 t ht).ne⟩] at this
        rw [hs10]
        have e : [10] ++ H ++ ([32, 47] ++ [10]) ++ (cs.map fun s => [42, 32] ++ s ++ [10]).flatten ++ sepText [44, 32, 10] ts ++ [32, 47, 59, 10] =
            10 :: (H ++ [32, 47] ++ 10 :: ((cs.map fun s => [42, 32] ++ s ++ [10]).flatten ++ (sepText [44, 32, 10] ts ++ [32, 47, 59, 10]))) := by simp
        rw [e]
        show 10 :: uncomment true false _ = _
        rw [this]
        simp
      rw [he]
      exact hdecl hdl

/-- C70: the text gdxdump writes for a symbol is, for a reader of GAMS, its declaration: the words for its type, its name, the names of its domains, its
    explanatory text (blanks at the ends may be lost) and the entries of its records, in the order of the file. -/
theorem C70_decl {o : GOpt} (ho : GOptOk o) {z : Cz} (hz : z.Good) {a : Gx} (ha : Fresh a) {nr : Int} {s : Sym} {cs : List Str} (hs : DeclOk a nr s cs) {d : SymDesc} {xs : List RawEntry}
    (h : HoldsSym z a nr d xs) (hr : ∀ outs, Delivered a.rsv (acrOf a) d xs outs → ∀ r ∈ outs, CanDeclare o a s.typ r) {fuel : Nat} (hf : xs.length < fuel) (hfc : cs.length < fuel) :
    ∃ outs ess g' t D, Delivered a.rsv (acrOf a) d xs outs ∧ List.Forall₂ (EntriesOf o a s.typ s.dim s.userInfo) outs ess ∧ writeSymbol o z fuel a nr = .ok (g', t) ∧
      decl (uncomment true false t) = some (D, [10]) ∧ D.kind = kindOf s.typ s.dim s.userInfo ∧ D.name = s.name ∧
      List.Forall₂ (DomNamed a) (s.domSyms.getD (List.replicate s.dim.toNat 0)) D.doms ∧ (∃ i j, s.expl = List.replicate i 32 ++ D.text ++ List.replicate j 32) ∧
      D.data = ess.flatten := by
  obtain ⟨outs, ess, g', t, D, h1, h2, h3, _, h4⟩ := decl_full ho hz ha hs h hr hf hfc (g := a) rfl (Or.inl ha.mode)
  exact ⟨outs, ess, g', t, D, h1, h2, h3, h4⟩

/-! ## files of the library -/

theorem acro_word {a : Gx} {l : List Acr} (hl : a.acros = some l) (hn : ∀ x ∈ l, ValWord x.name ∧ x.name.length ≤ 255) {v : Dbl} {q : ℚ} (hv : v.fv = .fin q) :
    ∃ b s, acronymName a v = .ok (b, s) ∧ if b then ValWord s else s = [] := by
  have hfin : dblInfo v = .finite := by
    have := expo_of_fin hv
    unfold Dbl.expo at this
    unfold dblInfo
    rw [if_neg this]
  have hidx : ∃ n, acrIndex v = .ok n := by
    unfold acrIndex acrDiv
    split
    · exact ⟨_, rfl⟩
    · rw [hfin, if_neg (by decide)]
      split
      · rename_i hp
        rw [hp] at hfin
        exact absurd hfin (by decide)
      · exact ⟨_, rfl⟩
  obtain ⟨n, hn'⟩ := hidx
  unfold acronymName
  rw [hn', Res.bind_ok]
  by_cases h0 : n ≤ 0
  · rw [if_pos h0]
    exact ⟨false, [], rfl, rfl⟩
  · rw [if_neg h0, hl]
    simp only [need, Res.bind_ok]
    cases hf : acrFind l n with
    | none =>
      refine ⟨true, _, rfl, ValWord.of_safe (by simp [unknownAcronym]) ?_ (by simp [unknownAcronym])⟩
      intro c hc
      rcases List.mem_append.mp hc with hc | hc
      · have : ∀ c ∈ unknownAcronym, Safe c := by unfold Safe; decide
        exact this c hc
      · obtain ⟨k, rfl⟩ := Int.eq_ofNat_of_zero_le (show 0 ≤ n by omega)
        rw [Merge.intToStr_nat] at hc
        exact Or.inr (Or.inr (Or.inr (Or.inl (Merge.digits_of 20 k c hc))))
    | some k =>
      obtain ⟨x, x1, _⟩ := acrFind_isSome hf
      have hx := hn x (List.mem_of_getElem? x1)
      have hat : at0 l k = .ok x := by
        unfold at0
        rw [if_pos (by omega), Int.toNat_natCast, x1]
      simp only [hat, Res.bind_ok]
      unfold fits
      rw [if_pos (by unfold ssSize; omega)]
      exact ⟨true, _, rfl, hx.1⟩

/-- a text of the table, or the replacement for a number that has none -/
theorem elem_word {a : Gx} {l : List (Str × Int)} (hl : a.texts = some l) (hp : ∀ p ∈ l, p.1.length ≤ 255 ∧ TextOk p.1) (n : Int) :
    ∃ b t k, getElemText a n = (b, t, k) ∧ Printable t ∧ TextOk t := by
  have hbad : TextOk (badStrPrefix ++ intToStr n) := by
    have hd : ∀ k, ∀ c ∈ digits 20 k, 48 ≤ c := fun k c hc => (Merge.digits_of 20 k c hc).1
    have hi : ∀ c ∈ intToStr n, 32 ≤ c ∧ c ≠ 39 := by
      have key : ∀ c : UInt8, 48 ≤ c → 32 ≤ c ∧ c ≠ 39 := by
        intro c hc
        refine ⟨UInt8.le_trans (by decide) hc, ?_⟩
        rintro rfl
        exact absurd hc (by decide)
      intro c hc
      unfold intToStr at hc
      split at hc
      · rcases List.mem_cons.mp hc with rfl | hc
        · decide
        · exact key c (hd _ c hc)
      · exact key c (hd _ c hc)
    refine ⟨⟨?_, ?_⟩, ?_⟩
    · intro c hc
      rcases List.mem_append.mp hc with hc | hc
      · have : ∀ c ∈ badStrPrefix, 32 ≤ c := by decide
        exact this c hc
      · exact (hi c hc).1
    · rintro ⟨hc, _⟩
      rcases List.mem_append.mp hc with hc | hc
      · revert hc; decide
      · exact (hi _ hc).2 rfl
    · intro hh
      exfalso
      have : (badStrPrefix ++ intToStr n).head? = some 63 := rfl
      rw [this] at hh
      revert hh
      decide
  have hpr : ∀ t : Str, t.length ≤ 255 → TextOk t → Printable t := fun t h1 h2 => ⟨fun c hc => UInt8.le_iff_toNat_le.mp (h2.quotable.1 c hc), h1⟩
  have hbl : (badStrPrefix ++ intToStr n).length ≤ 255 := by
    have hlen := intToStr_length n
    simp [badStrPrefix]
    omega
  unfold getElemText
  rw [hl]
  simp only
  split
  · cases h : l[n.toNat]? with
    | none => exact ⟨_, _, _, rfl, hpr _ hbl hbad, hbad⟩
    | some p => exact ⟨true, p.1, p.2, rfl, hpr _ (hp p (List.mem_of_getElem? h)).1 (hp p (List.mem_of_getElem? h)).2, (hp p (List.mem_of_getElem? h)).2⟩
  · exact ⟨_, _, _, rfl, hpr _ hbl hbad, hbad⟩

/-- the symbols of a file of the library can be declared -/
theorem own_decl {o : GOpt} {e : Env} {z : Cz} (hz : z.Good) {g : Gx} {syms : List Sym} {R : Nat → List RawEntry} {f : List UInt8} (h : OwnFile e z g syms R f)
    (hacr : ∀ l, g.acros = some l → ∀ x ∈ l, ValWord x.saveName ∧ x.saveName.length ≤ 255)
    (htx : ∀ l, g.texts = some l → ∀ p ∈ l, p.1.head? = some 39 ∨ p.1.head? = some 34 ∨ p.1.head? = some 46 → ∃ c ∈ p.1, c = 32 ∨ c = 44 ∨ c = 59 ∨ c = 47 ∨ c = 36 ∨ c = 61 ∨ c = 42) :
    ∃ a, openRead z Gx.new (.content f) = .ok (a, (true, 0)) ∧ a.uel.map Uel.strs = g.uel.map Uel.strs ∧ (Fresh a ∧ a.names = some (syms.map Sym.reopened) ∧ a.rsv = SVTab.default ∧
        ∃ l, g.acros = some l ∧ acronymCount a = l.length) ∧
      ∀ (n : Nat) (s : Sym), syms[n]? = some s → s.typ ≤ 3 → ∀ cs : List Str, s.comments = cs.map some → (∀ c ∈ cs, (10 : UInt8) ∉ c) → (s.dim = 0 → s.typ ≠ 0 ∧ cs = []) →
        ∃ outs, Delivered SVTab.default (acrOf a) (contentOf syms R ((n : Int) + 1)).1 (contentOf syms R ((n : Int) + 1)).2 outs ∧
          ((∀ r ∈ outs, ∀ v ∈ r.vals, ∃ q, v.fv = .fin q ∧ (q ≠ 0 → Nearest15 (o.dtoa v) q)) → (s.typ = 0 → ∀ r ∈ outs, ∀ v ∈ r.vals, Diff.roundInt v ≠ .ub) →
            DeclOk a ((n : Int) + 1) s.reopened cs ∧ ∃ d xs, HoldsSym z a ((n : Int) + 1) d xs ∧ xs.length = outs.length ∧
              ∀ outs', Delivered a.rsv (acrOf a) d xs outs' → outs' = outs ∧ ∀ r ∈ outs', CanDeclare o a s.reopened.typ r) := by
  obtain ⟨a, P, a1, a2, a3, a4⟩ := h.content hz
  have fi := h.hist.fine hz
  have hsyms := fi.inv.tab.syms syms h.full.names
  obtain ⟨g', k, hcl, rfl⟩ := h.close
  obtain ⟨a', b1, b2, b3⟩ := close_open hz fi.inv h.mode (fi.stat h.mode) hcl h.fits h.len Gx.new rfl 0
  rw [show openReadXX z Gx.new (.content g'.file) 0 = openRead z Gx.new (.content g'.file) from rfl, a1] at b1
  cases b1
  have hsv : a.sv = SVTab.default ∧ a.rsv = SVTab.default := b2.sv
  have hat : ∀ {k : Nat} {y : Sym}, syms[k]? = some y → a.symAt ((k : Int) + 1) = some y.reopened := by
    intro k y hk
    have hlt := (List.getElem?_eq_some_iff.mp hk).1
    unfold Gx.symAt
    rw [a3]
    simp only [List.length_map]
    rw [if_pos (by omega), show ((k : Int) + 1 - 1).toNat = k by omega, List.getElem?_map, hk]
    rfl
  obtain ⟨al, al1, al2⟩ := b2.acros
  obtain ⟨xl, xl1, xl2⟩ := b2.texts (by decide)
  refine ⟨a, a1, a4, ⟨a2.fresh, a3, hsv.2, al, al1, ?_⟩, ?_⟩
  · unfold acronymCount
    rw [al2]
    simp
  intro n s hs hty cs hcs hln h0
  have hok := hsyms.each n s hs
  have hold := a2.holds ((n : Int) + 1) (by rw [hat hs]; rfl)
  generalize hcont : contentOf syms R ((n : Int) + 1) = dx at hold
  obtain ⟨d, xs⟩ := dx
  dsimp only at hold
  obtain ⟨k1, k2, k3⟩ := decl_target (hat hs) hty hold
  obtain ⟨mm, ld, tg⟩ := hold.sym
  obtain ⟨outs, o1, _⟩ := ld.reads hz tg
  obtain ⟨hall, hlen⟩ := vals_length hold o1
  refine ⟨outs, by rw [← hsv.2]; exact o1, ?_⟩
  intro hfin hset
  have hdecl : DeclOk a ((n : Int) + 1) s.reopened cs := by
    refine ⟨⟨hat hs, hty, hok.good, hok.dim, ?_, hok.expl.2.2⟩, hcs, hln, h0⟩
    intro l hl
    obtain ⟨l1, l2⟩ := hok.dsy l hl
    refine ⟨l1, fun d hd => ?_⟩
    obtain ⟨d1, d2⟩ := l2 d hd
    by_cases hd0 : d ≤ 0
    · exact Or.inl hd0
    · right
      have hdl : (d - 1).toNat < syms.length := by omega
      have he : d = (((d - 1).toNat : Nat) : Int) + 1 := by omega
      refine ⟨(syms[(d - 1).toNat]).reopened, ?_, (hsyms.each _ _ (List.getElem?_eq_getElem hdl)).good⟩
      have := hat (List.getElem?_eq_getElem hdl)
      rw [← he] at this
      exact this
  refine ⟨hdecl, d, xs, hold, by omega, ?_⟩
  intro outs' ho'
  refine ⟨(Delivered.unique ld.sv o1 ho').symm, ?_⟩
  intro r hr
  rw [← Delivered.unique ld.sv o1 ho'] at hr
  refine ⟨fun _ v hv => ?_, fun h0' => ?_⟩
  · obtain ⟨q, hq, hq2⟩ := hfin r hr v hv
    refine ⟨acro_word al2 ?_ hq, q, hq, fun _ => hq2⟩
    intro x hx
    obtain ⟨y, hy, rfl⟩ := List.mem_map.mp hx
    exact hacr al al1 y hy
  · have h0' : s.typ = 0 := h0'
    have hl1 := (hall r hr).1
    rw [k1] at hl1
    rw [show s.reopened.typ = 0 from h0'] at hl1
    have hl1 : r.vals.length = 1 := hl1
    obtain ⟨v, hv⟩ := List.length_eq_one_iff.mp hl1
    have hvm : v ∈ r.vals := by rw [hv]; simp
    by_cases hz0 : v.fv = .fin 0
    · exact ⟨[], ⟨v, [], hv, Or.inl ⟨hz0, rfl⟩⟩, ⟨by simp, by simp⟩, by simp⟩
    · have hru := hset h0' r hr v hvm
      cases hri : Diff.roundInt v with
      | ub => exact absurd hri hru
      | ok k =>
        obtain ⟨b, w, kk, w1, w2, w3⟩ := elem_word xl2 (by
          intro p hp
          obtain ⟨y, hy, rfl⟩ := List.mem_map.mp hp
          obtain ⟨_, y1, y2⟩ := (fi.inv.txt xl xl1).zfree y hy
          exact ⟨y1, y2, htx xl xl1 y hy⟩) k
        exact ⟨w, ⟨v, [], hv, Or.inr ⟨hz0, k, b, kk, hri, w1, w2⟩⟩, w3⟩

/-- C70 for files of the library, in whatever way they were written: every symbol that is no alias. What is missing: aliases; sets without index; scalars with comments
    (see the counterexample), comments with a newline (counterexample), texts of set elements that start with a quote or dot (counterexample) and names of acronyms that
    are no words (the library does not check them); values that are infinite or NaN and not special (undefined, C66), set elements whose value is no number of
    a text (undefined); scalars without record (C59); files in which an alias stands for the universe. -/
theorem C70_own {o : GOpt} (ho : GOptOk o) {e : Env} {z : Cz} (hz : z.Good) {g : Gx} {syms : List Sym} {R : Nat → List RawEntry} {f : List UInt8} (h : OwnFile e z g syms R f)
    (hacr : ∀ l, g.acros = some l → ∀ x ∈ l, ValWord x.saveName ∧ x.saveName.length ≤ 255)
    (htx : ∀ l, g.texts = some l → ∀ p ∈ l, p.1.head? = some 39 ∨ p.1.head? = some 34 ∨ p.1.head? = some 46 → ∃ c ∈ p.1, c = 32 ∨ c = 44 ∨ c = 59 ∨ c = 47 ∨ c = 36 ∨ c = 61 ∨ c = 42)
    {n : Nat} {s : Sym} (hs : syms[n]? = some s) (hty : s.typ ≤ 3) {cs : List Str} (hcs : s.comments = cs.map some) (hln : ∀ c ∈ cs, (10 : UInt8) ∉ c)
    (h0 : s.dim = 0 → s.typ ≠ 0 ∧ cs = []) :
    ∃ a outs, openRead z Gx.new (.content f) = .ok (a, (true, 0)) ∧ a.uel.map Uel.strs = g.uel.map Uel.strs ∧
      Delivered SVTab.default (acrOf a) (contentOf syms R ((n : Int) + 1)).1 (contentOf syms R ((n : Int) + 1)).2 outs ∧
      ((∀ r ∈ outs, ∀ v ∈ r.vals, ∃ q, v.fv = .fin q ∧ (q ≠ 0 → Nearest15 (o.dtoa v) q)) → (s.typ = 0 → ∀ r ∈ outs, ∀ v ∈ r.vals, Diff.roundInt v ≠ .ub) →
       ∀ fuel, outs.length < fuel → cs.length < fuel → ∃ ess g' t D, List.Forall₂ (EntriesOf o a s.typ s.dim s.userInfo) outs ess ∧ writeSymbol o z fuel a ((n : Int) + 1) = .ok (g', t) ∧
        decl (uncomment true false t) = some (D, [10]) ∧ D.kind = kindOf s.typ s.dim s.userInfo ∧ D.name = s.name ∧
        List.Forall₂ (DomNamed a) (s.domSyms.getD (List.replicate s.dim.toNat 0)) D.doms ∧ (∃ i j, s.expl = List.replicate i 32 ++ D.text ++ List.replicate j 32) ∧
        D.data = ess.flatten) := by
  obtain ⟨a, a1, a4, ⟨af, _⟩, hall⟩ := own_decl (o := o) hz h hacr htx
  obtain ⟨outs, o1, o2⟩ := hall n s hs hty cs hcs hln h0
  refine ⟨a, outs, a1, a4, o1, ?_⟩
  intro hfin hset fuel hfu hfc
  obtain ⟨hdecl, d, xs, hold, hlen, hcan⟩ := o2 hfin hset
  obtain ⟨outs', ess, g2, t, D, q1, q2, q3, q4, q5, q6, q7, q8, q9⟩ := C70_decl ho hz af hdecl hold (fun outs' ho' => (hcan outs' ho').2) (fuel := fuel) (by omega) hfc
  rw [(hcan _ q1).1] at q2
  exact ⟨ess, g2, t, D, q2, q3, q4, q5, q6, q7, q8, q9⟩

/-- C70: the declaration of an alias; the universe is `*`. -/
theorem C70_alias {o : GOpt} (ho : GOptOk o) {z : Cz} {a : Gx} {nr : Int} {s : Sym} (hs : a.symAt nr = some s) (ht : s.typ = dtAlias) (hd : s.dim ≠ 0) (hc : s.dataCount = 0) {w : Str}
    (hw : s.userInfo = 0 ∧ w = [42] ∨ s.userInfo ≠ 0 ∧ ∃ q, a.symAt s.userInfo = some q ∧ w = q.name) (fuel : Nat) :
    writeSymbol o z fuel a nr = .ok (a, [10, 65, 108, 105, 97, 115, 32, 40] ++ s.name ++ [44, 32] ++ w ++ [41, 59, 10]) := by
  have hnr : nr ≠ 0 := by
    rintro rfl
    unfold Gx.symAt at hs
    split at hs
    · rw [if_neg (by omega)] at hs
      cases hs
    · cases hs
  have hi : symbolInfo a nr = ⟨true, s.name, s.dim, dtAlias⟩ := by
    unfold symbolInfo
    rw [if_neg hnr, hs, ← ht]
  have hx : symbolInfoX a nr = ⟨true, 0, s.userInfo, s.expl⟩ := by
    unfold symbolInfoX
    rw [if_neg hnr, hs]
    simp only [if_neg hd, hc]
  have hw' : (if s.userInfo = 0 then star else (symbolInfo a s.userInfo).name) = w := by
    rcases hw with ⟨h1, rfl⟩ | ⟨h1, q, h2, rfl⟩
    · rw [if_pos h1]; rfl
    · rw [if_neg h1]
      unfold symbolInfo
      rw [if_neg h1, h2]
  unfold writeSymbol gHead
  rw [hi, hx]
  dsimp only
  rw [if_pos ho.hdr, if_pos rfl, hw']
  simp only [Res.bind_ok, Res.pure_eq, ho.data, and_true, if_true]
  rw [if_neg (show ¬ (s.dim = 0 ∧ dtAlias = dtPar) from fun h => hd h.1), if_neg (by simp)]
  simp [subType, typName, dtAlias, dtSet, dtVar, dtEqu, dtPar]

/-! ## examples -/

/-- what gdxdump writes for symbol `nr` of the file that the calls write -/
def gamsOf (o : GOpt) (cs : List Call) (nr : Int) : Res Str := do
  let f ← fileOf cs
  let (a, _) ← openRead Cz.id Gx.new (.content f)
  let (_, t) ← writeSymbol o Cz.id 100 a nr
  pure t

/-- the options as they are by default -/
def exGOpt : GOpt := { dtoa := sampleDtoa, delim := 46 }

example : GOptOk exGOpt := ⟨rfl, rfl, rfl, rfl, fun t h => (by unfold UserWord at h; simp [exGOpt] at h), fun t h => (by cases h)⟩

/-- the set `i` (`the set`) with `a b` (text `it's`) and `c'd`; the parameter `p(i,*)` (`5/6`) with a comment; the positive variable `v`; the scalar `s` (`(one)`) -/
def exGams : List Call :=
  [.openWrite false 0 [65] 0, .addSetText [105, 116, 39, 115], .strStart [105] [116, 104, 101, 32, 115, 101, 116] 1 0 0, .writeStr [[97, 32, 98]] [0x3ff0000000000000],
   .writeStr [[99, 39, 100]] [0], .writeDone, .strStart [112] [53, 47, 54] 2 1 0, .setDomain [[105], [42]], .writeStr [[97, 32, 98], [120]] [0x3ff8000000000000],
   .writeStr [[99, 39, 100], [120]] [SVTab.default.eps], .writeDone, .addComment 2 [97, 32, 99, 111, 109, 109, 101, 110, 116],
   .strStart [118] [] 0 2 3, .writeStr [] [0x3ff8000000000000, 0, 0, SVTab.default.pin, 0x3ff0000000000000], .writeDone,
   .strStart [115] [40, 111, 110, 101, 41] 0 1 0, .writeStr [] [0], .writeDone]

/-- `Set i(*) the set /`, `'a b' it's,`, `"c'd" /;` -/
example : gamsOf exGOpt exGams 1 = .ok ([10, 83, 101, 116, 32, 105, 40, 42, 41, 32, 116, 104, 101, 32, 115, 101, 116, 32, 47, 10, 39, 97, 32, 98, 39, 32, 105, 116, 39, 115, 44, 32, 10] ++
    [34, 99, 39, 100, 34, 32, 47, 59, 10]) := by decide +kernel

/-- `Parameter p(i,*) '5/6' /`, `* a comment`, `'a b'.'x' 1.5,`, `"c'd".'x' Eps /;` -/
example : gamsOf exGOpt exGams 2 = .ok ([10, 80, 97, 114, 97, 109, 101, 116, 101, 114, 32, 112, 40, 105, 44, 42, 41, 32, 39, 53, 47, 54, 39, 32, 47, 10] ++
    [42, 32, 97, 32, 99, 111, 109, 109, 101, 110, 116, 10, 39, 97, 32, 98, 39, 46, 39, 120, 39, 32, 49, 46, 53, 44, 32, 10] ++
    [34, 99, 39, 100, 34, 46, 39, 120, 39, 32, 69, 112, 115, 32, 47, 59, 10]) := by decide +kernel

example : (do
    let t ← gamsOf exGOpt exGams 2
    pure (decl (uncomment true false t))) = .ok (some (⟨[[80, 97, 114, 97, 109, 101, 116, 101, 114]], [112], [[105], [42]], [53, 47, 54],
      [([[97, 32, 98], [120]], [49, 46, 53]), ([[99, 39, 100], [120]], [69, 112, 115])]⟩, [10])) := by decide +kernel

/-- `positive Variable v /L 1.5 /;`: only what is not the default -/
example : gamsOf exGOpt exGams 3 = .ok [10, 112, 111, 115, 105, 116, 105, 118, 101, 32, 86, 97, 114, 105, 97, 98, 108, 101, 32, 118, 32, 47, 76, 32, 49, 46, 53, 32, 47, 59, 10] := by
  decide +kernel

/-- `Scalar s '(one)' / 0 /;` -/
example : gamsOf exGOpt exGams 4 = .ok [10, 83, 99, 97, 108, 97, 114, 32, 115, 32, 39, 40, 111, 110, 101, 41, 39, 32, 47, 32, 48, 32, 47, 59, 10] := by decide +kernel

/-! ## where the text is read differently -/

/-- the declaration that is read from what gdxdump writes -/
def readBack (o : GOpt) (cs : List Call) (nr : Int) : Res (Option (Decl × Str)) := do
  let t ← gamsOf o cs nr
  pure (decl (uncomment true false t))

/-- the sets `i` and `j` with one element each, the texts are `'a'` and `'tis` -/
def exQuote : List Call :=
  [.openWrite false 0 [65] 0, .addSetText [39, 97, 39], .addSetText [39, 116, 105, 115], .strStart [105] [] 1 0 0, .writeStr [[97]] [0x3ff0000000000000], .writeDone,
   .strStart [106] [] 1 0 0, .writeStr [[97]] [0x4000000000000000], .writeDone]

/-- C70 fails for texts that start with a quote: they are written without quotes. The text `'a'` is read as `a`; `'tis` is a quoted string without end, and the
    declaration cannot be read. -/
theorem C70_quote : readBack exGOpt exQuote 1 = .ok (some (⟨[[83, 101, 116]], [105], [[42]], [], [([[97]], [97])]⟩, [10])) ∧ readBack exGOpt exQuote 2 = .ok none := by
  decide +kernel

/-- the scalar `s` with the comment `a`; the set `i` with the element `a` and the comment `x`, newline, `'b',` -/
def exComment : List Call :=
  [.openWrite false 0 [65] 0, .strStart [115] [] 0 1 0, .writeStr [] [0], .writeDone, .addComment 1 [97],
   .strStart [105] [] 1 0 0, .writeStr [[97]] [0], .writeDone, .addComment 2 [120, 10, 32, 39, 98, 39, 44]]

/-- C70 fails for scalars with a comment: it is written behind the slash, `Scalar s /* a`, newline, `0 /;`, and read as data. And a newline in a
    comment ends it: what follows is read as data, here a second element `b`. -/
theorem C70_comment : gamsOf exGOpt exComment 1 = .ok [10, 83, 99, 97, 108, 97, 114, 32, 115, 32, 47, 42, 32, 97, 10, 32, 48, 32, 47, 59, 10] ∧ readBack exGOpt exComment 1 = .ok none ∧
    readBack exGOpt exComment 2 = .ok (some (⟨[[83, 101, 116]], [105], [[42]], [], [([[98]], []), ([[97]], [])]⟩, [10])) := by decide +kernel

/-- the equation `e` of type =B= (59) -/
def exLogic : List Call := [.openWrite false 0 [65] 0, .strStart [101] [] 0 3 59, .writeStr [] [0, 0, 0, 0, 0x3ff0000000000000], .writeDone]

/-- gdxdump knows the types of equations as 0 to 6; in files they are 53 to 59. A logical equation is written as `Equation e /LO 0, UP 0 /;`. -/
theorem C70_logic : gamsOf exGOpt exLogic 1 = .ok [10, 69, 113, 117, 97, 116, 105, 111, 110, 32, 101, 32, 47, 76, 79, 32, 48, 44, 32, 85, 80, 32, 48, 32, 47, 59, 10] := by decide +kernel

/-- C70 fails with `Delim=comma`: gdxdump takes it for this format as well, and the labels of an element are read as two elements. -/
theorem C70_delim : readBack { exGOpt with delim := 44 } exGams 2 = .ok none := by decide +kernel

#print axioms C70_decl
#print axioms C70_own
#print axioms C70_alias
#print axioms C70_quote
#print axioms C70_comment
#print axioms C70_logic
#print axioms C70_delim

end Gdx.Props
