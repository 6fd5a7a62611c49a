import Verif.Props.DumpMain
import Verif.Props.DumpCsv
import Verif.Props.DumpTable
import Verif.Props.DumpTables
import Verif.Props.DumpBas

/-!
C84, continued: runs of gdxdump with Format=csv, Format=gamsbas and with the options for lists.
-/

namespace Gdx.Props
open Gdx Gdx.Dump Gdx.DblStr Gdx.Diff Gdx.Gams Gdx.Spec
open Gdx.DumpOpts Gdx.DumpMain Gdx.Listing
open Gdx.DiffOpts (str InName)

/-- there is one format -/
theorem format_unique {l : List (Key × Str)} {u : Bool} (hbad : ¬ Bad l u) {f f' : OFmt} (h : FormatOf l f) (h' : FormatOf l f') : f = f' := by
  rcases h with ⟨h1, rfl⟩ | ⟨v, hv, h⟩ <;> rcases h' with ⟨h1', rfl⟩ | ⟨w, hw, h'⟩
  · rfl
  · exact absurd ⟨w, hw⟩ h1
  · exact absurd ⟨v, hv⟩ h1'
  · have := once_unique hbad (by decide) hv hw
    subst this
    have no : ∀ {a b : Str}, ¬ SameNoCase a b → SameNoCase v a → ¬ SameNoCase v b := fun hn h1 h2 => hn (h1.symm.trans h2)
    rcases h with ⟨h, rfl⟩ | ⟨h, rfl⟩ | ⟨h, rfl⟩ <;> rcases h' with ⟨h', rfl⟩ | ⟨h', rfl⟩ | ⟨h', rfl⟩
    all_goals first | rfl | exact absurd h' (no (by decide +kernel) h)

theorem first_skip {act : DumpOpts.Act} {P : Prop} {b : DumpOpts.Act} {L : List (Prop × DumpOpts.Act)} (hn : ¬ P) (h : First ((P, b) :: L) act) : First L act := by
  cases h with
  | here p => exact absurd p hn
  | there _ k => exact k

theorem first_take {act : DumpOpts.Act} {P : Prop} {b : DumpOpts.Act} {L : List (Prop × DumpOpts.Act)} (hp : P) (h : First ((P, b) :: L) act) : act = b := by
  cases h with
  | here _ => rfl
  | there hn _ => exact absurd hp hn

/-- the options for lists -/
def listKeys : List Key := [.symbols, .asSet, .asSetDI, .domainInfo, .setText]

theorem uels_none {ex : Str → Bool} {file : Str} {l : List (Key × Str)} {r : Run} (t : Takes ex file l r) (h : ¬ DumpOpts.Given l .uelTable) : r.uels = [] := by
  rcases t.uels with ⟨_, hu⟩ | hu
  · exact hu
  · exact absurd ⟨_, hu⟩ h

theorem given_text {l : List (Key × Str)} {P : Str → Prop} {ks : List Key} (hwd : ∀ k ∈ ks, ∀ v, (k, v) ∈ l → P v) {k : Key} (hk : k ∈ ks) {o : Option Str} {t : Str} (hto : TextOf l k o)
    (ho : o = some t) : P t := by
  rcases hto with ⟨_, rfl⟩ | ⟨v, hv, rfl⟩
  · cases ho
  · injection ho with ho
    subst ho
    exact hwd k hk v (given_last hv)

theorem csv_front {ex : Str → Bool} {file : Str} {l : List (Key × Str)} {r : Run} (t : Takes ex file l r) (hf : r.fmt = .csv) (a : Gx) : front r a = .ok [] := by
  have hdata : r.opt.data = true := by
    cases hh : r.opt.data with
    | true => rfl
    | false => have := (t.data.mp hh).2; rw [hf] at this; cases this
  unfold front
  simp [hf, hdata, Res.bind_ok, Res.pure_eq]

/-- the line of the names, unless NoHeader is given -/
def HeadLine (l : List (Key × Str)) (row : List Str) (top : List (List Str)) : Prop := (DumpOpts.Given l .noHeader ∧ top = []) ∨ (¬ DumpOpts.Given l .noHeader ∧ top = [row])

/-- C84 with Format=csv and Symb, with C67 and C69: the file that is written is read as the table of the symbol of this name, with the rows of its records, or with CDim as the table with the last index in the columns;
    if there is no such symbol, gdxdump says so and ends with exit code 6. What is missing: as in C79, C67 and C69; a header of the user and the delimiter `period`. -/
theorem C84_csv_partial {w : World} {dtoa : Dbl → Digits} {file : Str} {args : List Str} {l : List (Key × Str)} (ha : ¬ SameNoCase file (str "AUDIT"))
    (hm : Means args l false) (hlen : ∀ a ∈ args, a.length ≤ 254) (hp : DumpOpts.Plain l) (hbad : ¬ Bad l false) (hcon : ¬ Conflict l) (hfmt : FormatOf l .csv)
    (hno : ∀ k ∈ listKeys ++ [.uelTable, .version, .header], ¬ DumpOpts.Given l k) (h46 : ¬ DelimOf l 46)
    (hwd : ∀ c, DelimOf l c → ∀ k ∈ [Key.eps, .na, .pinf, .minf, .undf, .zero], ∀ v, (k, v) ∈ l → Bare c v) {x : Str} (hx : (Key.symb, x) ∈ l)
    {m : Str} (hn : InName (fun n => (w.disk n).isSome) file m) {f : List UInt8} (hd : w.disk m = some f) (hw : ∀ v, (Key.output, v) ∈ l → w.canWrite v = true ∧ v ≠ m)
    {e : Env} {z : Cz} (hz : z.Good) {g : Gx} {syms : List Sym} {R : Nat → List RawEntry} (h : OwnFile e z g syms R f)
    (hacr : ∀ c, DelimOf l c → ∀ la, g.acros = some la → ∀ x ∈ la, Bare c x.saveName ∧ x.saveName.length ≤ 255) :
    ∃ a r, openRead z Gx.new (.content f) = .ok (a, (true, 0)) ∧ a.uel.map Uel.strs = g.uel.map Uel.strs ∧ Takes (fun n => (w.disk n).isSome) file l r ∧ r.opt.dtoa = dtoa ∧
      (x ≠ [42] → (∀ s ∈ syms, ¬ SameNoCase s.name x) → ∀ fuel, ∃ res, gdxdump w z fuel dtoa (file :: args) = .ok res ∧ res.code = 6 ∧ OutputIs l (notFound x) res) ∧
      ∀ (n : Nat) (s : Sym), syms[n]? = some s → SameNoCase s.name x → (s.dim = 0 → s.typ ≠ dtSet ∧ s.typ ≠ dtAlias) → ∃ outs : List (RecOut Int),
        Delivered SVTab.default (acrOf a) (contentOf syms R ((n : Int) + 1)).1 (contentOf syms R ((n : Int) + 1)).2 outs ∧
        ((∀ r ∈ outs, ∀ v ∈ r.vals, ∃ q, v.fv = .fin q ∧ (q ≠ 0 → Nearest15 (dtoa v) q)) →
         ((s.typ = dtSet ∨ s.typ = dtAlias) → DumpOpts.Given l .csvText → ∀ r ∈ outs, ∀ v ∈ r.vals, Diff.roundInt v ≠ .ub) →
         ∀ fuel, outs.length < fuel → ∃ ds c names res text, symbolGetDomainX a ((n : Int) + 1) = .ok (a, (c, ds)) ∧ NamesOf ds names ∧
          gdxdump w z fuel dtoa (file :: args) = .ok res ∧ res.code = 0 ∧ OutputIs l text res ∧
          (¬ (r.opt.cdim = true ∧ 2 ≤ s.dim) → ∃ top rows, csvRead r.opt.delim text = some (top ++ rows) ∧ HeadLine l (names ++ valueNames r.opt.toOpt s.typ) top ∧
            List.Forall₂ (RowOf r.opt.toOpt a s.typ) outs rows) ∧
          (r.opt.cdim = true ∧ 2 ≤ s.dim → ∃ us heads leads top rows, us.Pairwise (· < ·) ∧ (∀ u, u ∈ us ↔ ∃ r ∈ outs, r.key[s.dim.toNat - 1]? = some u) ∧ List.Forall₂ (LabelIs a) us heads ∧
            csvRead r.opt.delim text = some (top ++ rows) ∧ HeadLine l (names.take (s.dim.toNat - 1) ++ (if outs = [] then [[]] else heads)) top ∧
            IsTable (CellText r.opt.toOpt a s.typ) a s.dim.toNat us outs leads rows)) := by
  obtain ⟨a0, _, hop, _, hnm, hue⟩ := h.content hz
  obtain ⟨r, ht, hin, hdt, hrun⟩ := own_run (dtoa := dtoa) ha hm hlen hp hbad hcon (hno _ (by decide)) hn hd hw hop
  have hf : r.fmt = .csv := format_unique hbad ht.fmt hfmt
  obtain ⟨x', hx', hact⟩ := ht.act
  have hxx : x' = x := by
    rcases hx' with ⟨hh, _⟩ | hx'
    · exact absurd ⟨x, hx⟩ hh
    · exact once_unique hbad (by decide) hx' hx
  subst hxx
  have hact := first_take ⟨⟨_, hx⟩, hf⟩ (first_skip (hno _ (by decide)) (first_skip (hno _ (by decide)) (first_skip (hno _ (by decide)) (first_skip (hno _ (by decide))
    (first_skip (hno _ (by decide)) (first_skip (fun p => hno .uelTable (by decide) p.1) hact))))))
  have hfr := csv_front ht hf a0
  have hdel : r.opt.delim = 44 ∨ r.opt.delim = 59 ∨ r.opt.delim = 32 ∨ r.opt.delim = 9 := by
    have hne : r.opt.delim ≠ 46 := fun hc => h46 (hc ▸ ht.delim)
    rcases ht.delim with ⟨_, ⟨_, k⟩ | ⟨k, _⟩⟩ | ⟨v, _, ⟨_, k⟩ | ⟨_, k⟩ | ⟨_, k⟩ | ⟨_, k⟩ | ⟨_, k⟩⟩
    · exact Or.inl k
    · exact absurd hfmt k
    · exact absurd k hne
    · exact Or.inl k
    · exact Or.inr (Or.inr (Or.inr k))
    · exact Or.inr (Or.inr (Or.inl k))
    · exact Or.inr (Or.inl k)
  have hwd' := hwd _ ht.delim
  have ho : OptOk r.opt.toOpt := by
    refine ⟨hdel, ?_, ?_, fun t hz' => given_text hwd' (k := .zero) (by decide) ht.zero hz', ?_⟩
    · have hs : r.opt.sep = 46 ∨ r.opt.sep = 44 := by
        rcases ht.sep with ⟨_, k⟩ | ⟨v, _, ⟨_, k⟩ | ⟨_, k⟩⟩
        · exact Or.inl k
        · exact Or.inl k
        · exact Or.inr k
      rcases hs with hs | hs
      · exact Or.inl hs
      · refine Or.inr ⟨hs, fun hc => hcon (.same (c := 44) (hc ▸ ht.delim) (hs ▸ ht.sep) (by decide))⟩
    · intro t hu
      rcases hu with hu | hu | hu | hu | hu
      · exact given_text hwd' (k := .undf) (by decide) ht.undf hu
      · exact given_text hwd' (k := .na) (by decide) ht.na hu
      · exact given_text hwd' (k := .pinf) (by decide) ht.pinf hu
      · exact given_text hwd' (k := .minf) (by decide) ht.minf hu
      · exact given_text hwd' (k := .eps) (by decide) ht.eps hu
    · rcases ht.header with ⟨_, k⟩ | ⟨v, hv, _⟩
      · exact k
      · exact absurd ⟨v, given_last hv⟩ (hno .header (by decide))
  have hhdr : (r.opt.showHdr = true) ↔ ¬ DumpOpts.Given l .noHeader := by
    constructor
    · intro h1 h2
      rw [ht.showHdr.mpr (Or.inr ⟨h2, _, hx⟩)] at h1
      cases h1
    · intro h1
      cases hh : r.opt.showHdr with
      | true => rfl
      | false =>
        rcases ht.showHdr.mp hh with p | p
        · rw [hf] at p; cases p
        · exact absurd p.1 h1
  have hif : ∀ row : List Str, HeadLine l row (if r.opt.showHdr = true then [row] else []) := by
    intro row
    by_cases hg : DumpOpts.Given l .noHeader
    · exact Or.inl ⟨hg, if_neg (fun hc => hhdr.mp hc hg)⟩
    · exact Or.inr ⟨hg, if_pos (hhdr.mpr hg)⟩
  refine ⟨a0, r, hop, hue, ht, hdt, ?_, ?_⟩
  · intro hst hmis fuel
    have hmiss := own_missing hnm hst hmis
    have hb : body r z fuel a0 = .ok (notFound x', 6) := by
      unfold body
      rw [hact]
      dsimp only
      unfold oneSymbol listing
      rw [hf]
      simp [hmiss, Res.bind_ok, Res.pure_eq]
    exact hrun fuel [] _ _ hfr hb
  · intro n s hs hsx h0
    have hfind := own_find hz h hnm hs hsx
    have hbody : ∀ {fuel : Nat} {g' : Gx} {t : Str}, writeCSV r.opt.toOpt z fuel a0 ((n : Int) + 1) = .ok (g', t) → body r z fuel a0 = .ok (t, 0) := by
      intro fuel g' t hc
      unfold body
      rw [hact]
      dsimp only
      unfold oneSymbol listing
      rw [hf, hfind]
      dsimp only
      rw [if_neg (by simp), hc]
      simp [Res.bind_ok, Res.pure_eq]
    by_cases hcd : r.opt.cdim = true ∧ 2 ≤ s.dim
    · obtain ⟨a, outs, b1, _, b2, b3⟩ := C69_own ho hz h (hacr _ ht.delim) hs hcd.1 hcd.2
      rw [hop] at b1
      cases b1
      refine ⟨outs, b2, fun hv hset fuel hfu => ?_⟩
      rw [hdt] at b3
      obtain ⟨ds, c, names, us, heads, leads, rows, g', text, c1, c2, c3, c4, c5, c6, c7, c8⟩ := b3 hv (fun h1 h2 => hset h1 (ht.csvText.mp h2)) fuel hfu
      obtain ⟨res, e1, e2, e3⟩ := hrun fuel [] text 0 hfr (hbody c6)
      exact ⟨ds, c, names, res, text, c1, c2, e1, e2, e3, fun hc => absurd hcd hc, fun _ => ⟨us, heads, leads, _, rows, c3, c4, c5, c7, hif _, c8⟩⟩
    · obtain ⟨a, outs, b1, _, b2, b3⟩ := C67_own ho hz h (hacr _ ht.delim) hs h0 hcd
      rw [hop] at b1
      cases b1
      refine ⟨outs, b2, fun hv hset fuel hfu => ?_⟩
      rw [hdt] at b3
      obtain ⟨ds, c, names, rows, g', text, c1, c2, c3, c4, c5⟩ := b3 hv (fun h1 h2 => hset h1 (ht.csvText.mp h2)) fuel hfu
      obtain ⟨res, e1, e2, e3⟩ := hrun fuel [] text 0 hfr (hbody c3)
      exact ⟨ds, c, names, res, text, c1, c2, e1, e2, e3, fun _ => ⟨_, rows, c4, hif _, c5⟩, fun hc => absurd hc hcd⟩

/-! ## Format=gamsbas -/

theorem bas_all_body {r : Run} (h1 : r.fmt = .gamsbas) (h2 : r.act = .all) (h3 : r.uels = []) (hdata : r.opt.data = true) {z : Cz} {fuel : Nat} {a g' : Gx} {t : Str}
    (h : dumpBas r.opt z fuel a = .ok (g', t)) : ∃ p q, front r a = .ok p ∧ body r z fuel a = .ok (q, 0) ∧ p ++ q = t := by
  unfold dumpBas at h
  obtain ⟨acr, k1, h⟩ := Res.bind_eq_ok.mp h
  obtain ⟨⟨g1, t1, lc⟩, k2, h⟩ := Res.bind_eq_ok.mp h
  dsimp only at h
  rw [Res.pure_eq] at h
  injection h with h
  injection h with _ h
  refine ⟨acr, sOnEmpty ++ t1 ++ sOffEmpty ++ (if lc > 6 then sOnListing else []), ?_, ?_, ?_⟩
  · unfold front
    rw [h1, if_neg (by simp), k1, Res.bind_ok]
    dsimp only
    rw [if_pos (Or.inl h3), Res.bind_ok]
    simp [hdata, Res.pure_eq]
  · unfold body
    rw [h2]
    dsimp only
    unfold allOf listing
    rw [h1]
    dsimp only
    rw [k2]
    simp [Res.bind_ok, Res.pure_eq, hdata]
  · rw [← h]
    simp

theorem bas_one_body {r : Run} {x : Str} (h1 : r.fmt = .gamsbas) (h2 : r.act = .one x) (h3 : r.uels = []) (hdata : r.opt.data = true) (hhdr : r.opt.showHdr = false) {z : Cz} {fuel : Nat} {a g' : Gx}
    {t : Str} {nr : Int} (hfind : findSymbol a x = (true, nr)) (h : dumpBasOne r.opt z fuel a nr = .ok (g', t)) : ∃ p q, front r a = .ok p ∧ body r z fuel a = .ok (q, 0) ∧ p ++ q = t := by
  unfold dumpBasOne at h
  obtain ⟨acr, k1, h⟩ := Res.bind_eq_ok.mp h
  obtain ⟨⟨g1, t1, lc⟩, k2, h⟩ := Res.bind_eq_ok.mp h
  dsimp only at h
  rw [Res.pure_eq] at h
  injection h with h
  injection h with _ h
  refine ⟨acr, t1 ++ [10] ++ (if lc > 6 then sOnListing else []), ?_, ?_, ?_⟩
  · unfold front
    rw [h1, if_neg (by simp), k1, Res.bind_ok]
    dsimp only
    rw [if_pos (Or.inl h3), Res.bind_ok]
    simp [hdata, Res.pure_eq]
  · unfold body
    rw [h2]
    dsimp only
    unfold oneSymbol listing
    rw [h1, hfind]
    dsimp only
    rw [if_neg (by simp), k2]
    simp [Res.bind_ok, Res.pure_eq, hhdr]
  · rw [← h]
    simp

/-- what the options mean with Format=gamsbas -/
theorem takes_bas {ex : Str → Bool} {file : Str} {l : List (Key × Str)} {r : Run} (t : Takes ex file l r) (hbad : ¬ Bad l false) (hfmt : FormatOf l .gamsbas)
    (hno : ∀ k ∈ listKeys ++ [.uelTable, .decSep, .version], ¬ DumpOpts.Given l k) (hdl : ∀ c, DelimOf l c → c = 46 ∨ c = 44)
    (hwd : ∀ k ∈ [Key.eps, .na, .pinf, .minf, .undf, .zero], ∀ v, (k, v) ∈ l → ValWord v) :
    r.fmt = .gamsbas ∧ r.uels = [] ∧ r.opt.data = true ∧ r.opt.showHdr = false ∧ BasOk r.opt ∧ (¬ DumpOpts.Given l .symb → r.act = .all) ∧ ∀ x, (Key.symb, x) ∈ l → r.act = .one x := by
  have hf : r.fmt = .gamsbas := format_unique hbad t.fmt hfmt
  refine ⟨hf, uels_none t (hno _ (by decide)), ?_, t.showHdr.mpr (Or.inl hf), ⟨hdl _ t.delim, sep_normal (hno _ (by decide)) t.sep, ?_, fun s hz' => given_text hwd (k := .zero) (by decide) t.zero hz'⟩, ?_⟩
  · cases hh : r.opt.data with
    | true => rfl
    | false => have := (t.data.mp hh).2; rw [hf] at this; cases this
  · intro s hu
    rcases hu with hu | hu | hu | hu | hu
    · exact given_text hwd (k := .undf) (by decide) t.undf hu
    · exact given_text hwd (k := .na) (by decide) t.na hu
    · exact given_text hwd (k := .pinf) (by decide) t.pinf hu
    · exact given_text hwd (k := .minf) (by decide) t.minf hu
    · exact given_text hwd (k := .eps) (by decide) t.eps hu
  obtain ⟨x', hx', hact⟩ := t.act
  have hact := first_skip (fun p => by have := p.2; rw [hf] at this; cases this) (first_skip (hno _ (by decide)) (first_skip (hno _ (by decide)) (first_skip (hno _ (by decide)) (first_skip (hno _ (by decide))
    (first_skip (hno _ (by decide)) (first_skip (fun p => hno .uelTable (by decide) p.1) hact))))))
  constructor
  · intro hns
    exact first_take trivial (first_skip hns hact)
  · intro x hx
    rcases hx' with ⟨hh, _⟩ | hx'
    · exact absurd ⟨x, hx⟩ hh
    · rw [once_unique hbad (by decide) hx hx']
      exact first_take ⟨_, hx⟩ hact

/-- C84 with Format=gamsbas, with C82: gdxdump ends with exit code 0, and what it writes is a program whose assignments are those of the levels and marginals. What is missing: as in C79 and C82. -/
theorem C84_bas_partial {w : World} {dtoa : Dbl → Digits} {file : Str} {args : List Str} {l : List (Key × Str)} (ha : ¬ SameNoCase file (str "AUDIT"))
    (hm : Means args l false) (hlen : ∀ a ∈ args, a.length ≤ 254) (hp : DumpOpts.Plain l) (hbad : ¬ Bad l false) (hcon : ¬ Conflict l) (hfmt : FormatOf l .gamsbas)
    (hno : ∀ k ∈ listKeys ++ [.uelTable, .decSep, .version], ¬ DumpOpts.Given l k) (hns : ¬ DumpOpts.Given l .symb) (hdl : ∀ c, DelimOf l c → c = 46 ∨ c = 44)
    (hwd : ∀ k ∈ [Key.eps, .na, .pinf, .minf, .undf, .zero], ∀ v, (k, v) ∈ l → ValWord v)
    {m : Str} (hn : InName (fun n => (w.disk n).isSome) file m) {f : List UInt8} (hd : w.disk m = some f) (hw : ∀ v, (Key.output, v) ∈ l → w.canWrite v = true ∧ v ≠ m)
    {e : Env} {z : Cz} (hz : z.Good) {g : Gx} {syms : List Sym} {R : Nat → List RawEntry} (h : OwnFile e z g syms R f) (hacr : g.acros = some [])
    (hsy : ∀ (n : Nat) (s : Sym), syms[n]? = some s → (s.typ ≤ 3 ∧ ∃ cs : List Str, s.comments = cs.map some ∧ ∀ c ∈ cs, (10 : UInt8) ∉ c) ∨ (s.typ = dtAlias ∧ s.dim ≠ 0 ∧ s.dataCount = 0)) :
    ∃ a, ∃ outs : Nat → List (RecOut Int), ∃ r, openRead z Gx.new (.content f) = .ok (a, (true, 0)) ∧ Takes (fun n => (w.disk n).isSome) file l r ∧
      (∀ (n : Nat) (s : Sym), syms[n]? = some s → s.typ = 2 ∨ s.typ = 3 → Delivered SVTab.default (acrOf a) (contentOf syms R ((n : Int) + 1)).1 (contentOf syms R ((n : Int) + 1)).2 (outs n)) ∧
      ((∀ (n : Nat) (s : Sym), syms[n]? = some s → s.typ = 2 ∨ s.typ = 3 → ∀ r ∈ outs n, ∀ v ∈ r.vals, ∃ q, v.fv = .fin q ∧ (q ≠ 0 → Nearest15 (dtoa v) q)) →
       ∀ fuel, (∀ (n : Nat) (s : Sym), syms[n]? = some s → s.typ = 2 ∨ s.typ = 3 → (outs n).length < fuel ∧ s.comments.length < fuel) →
        ∃ res t, ∃ ass : List (List Assign), gdxdump w z fuel dtoa (file :: args) = .ok res ∧ res.code = 0 ∧ OutputIs l t res ∧ basis t = some (ass.flatten, true) ∧ ass.length = syms.length ∧
          ∀ (n : Nat) (s : Sym), syms[n]? = some s → ∃ as, ass[n]? = some as ∧ SymbolSet r.opt a s (outs n) as) := by
  obtain ⟨a0, _, hop, _⟩ := h.content hz
  obtain ⟨r, ht, hin, hdt, hrun⟩ := own_run (dtoa := dtoa) ha hm hlen hp hbad hcon (hno _ (by decide)) hn hd hw hop
  obtain ⟨t1, t2, t3, _, ho, t4, _⟩ := takes_bas ht hbad hfmt hno hdl hwd
  obtain ⟨a, outs, b1, b2, b3⟩ := C82_own_partial ho hz h hacr hsy
  rw [hop] at b1
  cases b1
  refine ⟨a0, outs, r, hop, ht, b2, fun hv fuel hfu => ?_⟩
  rw [hdt] at b3
  obtain ⟨g', t, ass, c1, c2, c3, c4⟩ := b3 hv fuel hfu
  obtain ⟨p, q, d1, d2, d3⟩ := bas_all_body t1 (t4 hns) t2 t3 c1
  obtain ⟨res, e1, e2, e3⟩ := hrun fuel p q 0 d1 d2
  rw [d3] at e3
  exact ⟨res, t, ass, e1, e2, e3, c2, c3, c4⟩

/-- C84 with Format=gamsbas and Symb, with C82: the assignments of this symbol only; if there is no such symbol, gdxdump says so and ends with exit code 6. What is missing: as in C79 and C82. -/
theorem C84_bas_symb_partial {w : World} {dtoa : Dbl → Digits} {file : Str} {args : List Str} {l : List (Key × Str)} (ha : ¬ SameNoCase file (str "AUDIT"))
    (hm : Means args l false) (hlen : ∀ a ∈ args, a.length ≤ 254) (hp : DumpOpts.Plain l) (hbad : ¬ Bad l false) (hcon : ¬ Conflict l) (hfmt : FormatOf l .gamsbas)
    (hno : ∀ k ∈ listKeys ++ [.uelTable, .decSep, .version], ¬ DumpOpts.Given l k) {x : Str} (hx : (Key.symb, x) ∈ l) (hdl : ∀ c, DelimOf l c → c = 46 ∨ c = 44)
    (hwd : ∀ k ∈ [Key.eps, .na, .pinf, .minf, .undf, .zero], ∀ v, (k, v) ∈ l → ValWord v)
    {m : Str} (hn : InName (fun n => (w.disk n).isSome) file m) {f : List UInt8} (hd : w.disk m = some f) (hw : ∀ v, (Key.output, v) ∈ l → w.canWrite v = true ∧ v ≠ m)
    {e : Env} {z : Cz} (hz : z.Good) {g : Gx} {syms : List Sym} {R : Nat → List RawEntry} (h : OwnFile e z g syms R f) (hacr : g.acros = some []) :
    ∃ a r, openRead z Gx.new (.content f) = .ok (a, (true, 0)) ∧ Takes (fun n => (w.disk n).isSome) file l r ∧
      (x ≠ [42] → (∀ s ∈ syms, ¬ SameNoCase s.name x) → ∀ fuel, ∃ res, gdxdump w z fuel dtoa (file :: args) = .ok res ∧ res.code = 6 ∧ OutputIs l (notFound x) res) ∧
      ∀ (n : Nat) (s : Sym), syms[n]? = some s → SameNoCase s.name x →
        (s.typ ≤ 3 ∧ ∃ cs : List Str, s.comments = cs.map some ∧ ∀ c ∈ cs, (10 : UInt8) ∉ c) ∨ (s.typ = dtAlias ∧ s.dim ≠ 0 ∧ s.dataCount = 0) → ∃ outs : List (RecOut Int),
        Delivered SVTab.default (acrOf a) (contentOf syms R ((n : Int) + 1)).1 (contentOf syms R ((n : Int) + 1)).2 outs ∧
        ((s.typ = 2 ∨ s.typ = 3 → ∀ r ∈ outs, ∀ v ∈ r.vals, ∃ q, v.fv = .fin q ∧ (q ≠ 0 → Nearest15 (dtoa v) q)) →
         ∀ fuel, (s.typ = 2 ∨ s.typ = 3 → outs.length < fuel ∧ s.comments.length < fuel) →
          ∃ res t as, gdxdump w z fuel dtoa (file :: args) = .ok res ∧ res.code = 0 ∧ OutputIs l t res ∧ basis t = some (as, true) ∧ SymbolSet r.opt a s outs as) := by
  obtain ⟨a0, _, hop, _, hnm, _⟩ := h.content hz
  obtain ⟨r, ht, hin, hdt, hrun⟩ := own_run (dtoa := dtoa) ha hm hlen hp hbad hcon (hno _ (by decide)) hn hd hw hop
  obtain ⟨t1, t2, t3, t5, ho, _, t4⟩ := takes_bas ht hbad hfmt hno hdl hwd
  have hact := t4 x hx
  refine ⟨a0, r, hop, ht, ?_, ?_⟩
  · intro hst hmis fuel
    have hmiss := own_missing hnm hst hmis
    have hfr : front r a0 = .ok [] := by
      unfold front
      rw [t1, if_neg (by simp), own_acronyms hz h hacr hop, Res.bind_ok]
      dsimp only
      rw [if_pos (Or.inl t2), Res.bind_ok]
      simp [t3, Res.pure_eq]
    have hb : body r z fuel a0 = .ok (notFound x, 6) := by
      unfold body
      rw [hact]
      dsimp only
      unfold oneSymbol listing
      rw [t1]
      simp [hmiss, Res.bind_ok, Res.pure_eq]
    exact hrun fuel [] _ _ hfr hb
  · intro n s hs hsx hsy
    obtain ⟨a, outs, b1, b2, b3⟩ := C82_one_partial ho hz h hacr hs hsy
    rw [hop] at b1
    cases b1
    refine ⟨outs, b2, fun hv fuel hfu => ?_⟩
    rw [hdt] at b3
    obtain ⟨g', t, as, c1, c2, c3⟩ := b3 hv fuel hfu
    obtain ⟨p, q, d1, d2, d3⟩ := bas_one_body t1 hact t2 t3 t5 (own_find hz h hnm hs hsx) c1
    obtain ⟨res, e1, e2, e3⟩ := hrun fuel p q 0 d1 d2
    rw [d3] at e3
    exact ⟨res, t, as, e1, e2, e3, c2, c3⟩

/-! ## lists -/

theorem list_front {ex : Str → Bool} {file : Str} {l : List (Key × Str)} {r : Run} (t : Takes ex file l r) (hu : ¬ DumpOpts.Given l .uelTable) (hnd : ¬ DumpOpts.Given l .noData) {a : Gx}
    (hac : writeAcronyms a = .ok []) : front r a = .ok [] := by
  have hdata : r.opt.data = true := by
    cases hh : r.opt.data with
    | true => rfl
    | false => exact absurd (t.data.mp hh).1 hnd
  unfold front
  by_cases hf : r.fmt = .csv
  · simp [hf, hdata, Res.bind_ok, Res.pure_eq]
  · simp [hf, hdata, hac, uels_none t hu, Res.bind_ok, Res.pure_eq]

/-- this list is wanted: gdxdump takes the first one of those that are given -/
def Wants (l : List (Key × Str)) (k : Key) : Prop := ∃ a b, listKeys = a ++ k :: b ∧ DumpOpts.Given l k ∧ ∀ k' ∈ a, ¬ DumpOpts.Given l k'

def listAct : Key → DumpOpts.Act
  | .symbols => .symbols
  | .asSet => .asSet false
  | .asSetDI => .asSet true
  | .domainInfo => .domInfo
  | _ => .setText

theorem wants_act {ex : Str → Bool} {file : Str} {l : List (Key × Str)} {r : Run} (t : Takes ex file l r) (hu : ¬ DumpOpts.Given l .uelTable) {k : Key} (hk : Wants l k) : r.act = listAct k := by
  obtain ⟨x, _, hact⟩ := t.act
  have hact := first_skip (fun p => hu p.1) hact
  obtain ⟨a, b, e, hg, hno⟩ := hk
  unfold listKeys at e
  have step : ∀ {k0 : Key} {L : List Key} {a b : List Key} {k : Key}, k0 :: L = a ++ k :: b → (a = [] ∧ k = k0) ∨ ∃ a', a = k0 :: a' ∧ L = a' ++ k :: b := by
    intro k0 L a b k h
    cases a with
    | nil => injection h with h1 h2; exact Or.inl ⟨rfl, h1.symm⟩
    | cons x a => injection h with h1 h2; exact Or.inr ⟨a, by rw [h1], h2⟩
  rcases step e with ⟨rfl, rfl⟩ | ⟨a, rfl, e1⟩
  · exact first_take hg hact
  have hact := first_skip (hno _ (by simp)) hact
  rcases step e1 with ⟨rfl, rfl⟩ | ⟨a, rfl, e2⟩
  · exact first_take hg hact
  have hact := first_skip (hno _ (by simp)) hact
  rcases step e2 with ⟨rfl, rfl⟩ | ⟨a, rfl, e3⟩
  · exact first_take hg hact
  have hact := first_skip (hno _ (by simp)) hact
  rcases step e3 with ⟨rfl, rfl⟩ | ⟨a, rfl, e4⟩
  · exact first_take hg hact
  have hact := first_skip (hno _ (by simp)) hact
  rcases step e4 with ⟨rfl, rfl⟩ | ⟨a, rfl, e5⟩
  · exact first_take hg hact
  · simp at e5

/-- C84 with Symbols, SymbolsAsSet, SymbolsAsSetDI, DomainInfo and SetText, with C71 and C81, for files without acronyms: gdxdump writes the list and ends with exit code 0, whatever other options there are
    (UelTable and NoData, which write something before the list, -V and a list that goes before are excluded). What is missing: as in C79, C71 and C81; files with acronyms (`C84_list_acronyms`). -/
theorem C84_lists_partial {w : World} {dtoa : Dbl → Digits} {file : Str} {args : List Str} {l : List (Key × Str)} (ha : ¬ SameNoCase file (str "AUDIT"))
    (hm : Means args l false) (hlen : ∀ a ∈ args, a.length ≤ 254) (hp : DumpOpts.Plain l) (hbad : ¬ Bad l false) (hcon : ¬ Conflict l)
    (hno : ∀ k ∈ [Key.uelTable, .noData, .version], ¬ DumpOpts.Given l k)
    {m : Str} (hn : InName (fun n => (w.disk n).isSome) file m) {f : List UInt8} (hd : w.disk m = some f) (hw : ∀ v, (Key.output, v) ∈ l → w.canWrite v = true ∧ v ≠ m)
    {e : Env} {z : Cz} (hz : z.Good) {g : Gx} {syms : List Sym} {R : Nat → List RawEntry} (h : OwnFile e z g syms R f) (hacr : g.acros = some []) :
    (Wants l .symbols → ∀ fuel, ∃ res t head rows, ∃ order : List (Sym × Nat), gdxdump w z fuel dtoa (file :: args) = .ok res ∧ res.code = 0 ∧ OutputIs l t res ∧ IsLines t (head :: rows) ∧
      order.Perm syms.zipIdx ∧ ByName order ∧ rows.length = order.length ∧ words 6 head = some ([str "Symbol", str "Dim", str "Type", str "Records", str "Explanatory", str "text"], []) ∧
      ∀ (i : Nat) (x : Sym × Nat) (row : Str), order[i]? = some x → rows[i]? = some row → InfoLine i x.1 row ∧
        row.length + 16 = head.length + x.1.expl.length + if x.1.typ = dtAlias then 1 else 0) ∧
    (Wants l .asSet → syms ≠ [] → ∀ fuel, ∃ res t, gdxdump w z fuel dtoa (file :: args) = .ok res ∧ res.code = 0 ∧
      OutputIs l (str "alias (Symbol, Dim, Type, *);\nset    gdxitems(Symbol,Dim,Type)  Items in the GDX file /" ++ t) res ∧
      dataList 3 t = some (syms.map fun s => ([s.name, intToStr s.dim, typWord s.typ], s.expl), [59, 10])) ∧
    (Wants l .asSetDI → syms ≠ [] → ∀ fuel, ∃ res t dl es, gdxdump w z fuel dtoa (file :: args) = .ok res ∧ res.code = 0 ∧
      OutputIs l (str "alias (Symbol, Dim, Type, Domain, *);\nset    gdxitemsDI(Symbol,Dim,Type,Domain)  Items in the GDX file /" ++ t) res ∧ g.domStrs = some dl ∧
      dataList 4 t = some (es, [59, 10]) ∧ List.Forall₂ (ItemOf syms dl) syms es) ∧
    (Wants l .domainInfo → ∀ fuel, ∃ res t dl head rows, ∃ order : List (Sym × Nat), gdxdump w z fuel dtoa (file :: args) = .ok res ∧ res.code = 0 ∧ OutputIs l t res ∧ g.domStrs = some dl ∧
      IsLines t (head :: rows) ∧ order.Perm syms.zipIdx ∧ ByName order ∧ List.Forall₂ (DomLine syms dl (head.length - 6)) order rows ∧
      words 4 head = some ([str "SyNr", str "Type", str "DomInf", str "Symbol"], [])) := by
  obtain ⟨a0, _, hop, _⟩ := h.content hz
  obtain ⟨r, ht, hin, hdt, hrun⟩ := own_run (dtoa := dtoa) ha hm hlen hp hbad hcon (hno _ (by decide)) hn hd hw hop
  have hfr := list_front ht (hno _ (by decide)) (hno _ (by decide)) (own_acronyms hz h hacr hop)
  have hact : ∀ {k : Key}, Wants l k → r.act = listAct k := fun hk => wants_act ht (hno _ (by decide)) hk
  refine ⟨fun hk fuel => ?_, fun hk h0 fuel => ?_, fun hk h0 fuel => ?_, fun hk fuel => ?_⟩
  · obtain ⟨a, t, head, rows, order, b1, b2, b3⟩ := C81_symbols_partial hz h
    rw [hop] at b1
    cases b1
    obtain ⟨res, e1, e2, e3⟩ := hrun fuel [] t 0 hfr (by
      unfold body
      rw [hact hk]
      dsimp only [listAct]
      rw [b2]
      rfl)
    exact ⟨res, t, head, rows, order, e1, e2, e3, b3⟩
  · obtain ⟨a, t, b1, b2, b3⟩ := C71_symbols hz h h0
    rw [hop] at b1
    cases b1
    obtain ⟨res, e1, e2, e3⟩ := hrun fuel [] (sAsSet false ++ 47 :: t) 0 hfr (by
      unfold body
      rw [hact hk]
      dsimp only [listAct]
      rw [b2]
      rfl)
    refine ⟨res, t, e1, e2, ?_, b3⟩
    rw [show [] ++ (sAsSet false ++ 47 :: t) = (sAsSet false ++ [47]) ++ t by simp, show sAsSet false ++ [47] = str "alias (Symbol, Dim, Type, *);\nset    gdxitems(Symbol,Dim,Type)  Items in the GDX file /" by decide +kernel] at e3
    exact e3
  · obtain ⟨a, t, dl, es, b1, b2, b3, b4, b5⟩ := C81_set hz h h0
    rw [hop] at b1
    cases b1
    obtain ⟨res, e1, e2, e3⟩ := hrun fuel [] (sAsSet true ++ 47 :: t) 0 hfr (by
      unfold body
      rw [hact hk]
      dsimp only [listAct]
      rw [b3]
      rfl)
    refine ⟨res, t, dl, es, e1, e2, ?_, b2, b4, b5⟩
    rw [show [] ++ (sAsSet true ++ 47 :: t) = (sAsSet true ++ [47]) ++ t by simp,
      show sAsSet true ++ [47] = str "alias (Symbol, Dim, Type, Domain, *);\nset    gdxitemsDI(Symbol,Dim,Type,Domain)  Items in the GDX file /" by decide +kernel] at e3
    exact e3
  · obtain ⟨a, t, dl, head, rows, order, b1, b2, b3, b4⟩ := C81_domains hz h
    rw [hop] at b1
    cases b1
    obtain ⟨res, e1, e2, e3⟩ := hrun fuel [] t 0 hfr (by
      unfold body
      rw [hact hk]
      dsimp only [listAct]
      rw [b3]
      rfl)
    exact ⟨res, t, dl, head, rows, order, e1, e2, e3, b2, b4⟩

/-- C84 with SetText, with C81. -/
theorem C84_texts_partial {w : World} {dtoa : Dbl → Digits} {file : Str} {args : List Str} {l : List (Key × Str)} (ha : ¬ SameNoCase file (str "AUDIT"))
    (hm : Means args l false) (hlen : ∀ a ∈ args, a.length ≤ 254) (hp : DumpOpts.Plain l) (hbad : ¬ Bad l false) (hcon : ¬ Conflict l)
    (hno : ∀ k ∈ [Key.uelTable, .noData, .version], ¬ DumpOpts.Given l k) (hk : Wants l .setText)
    {m : Str} (hn : InName (fun n => (w.disk n).isSome) file m) {f : List UInt8} (hd : w.disk m = some f) (hw : ∀ v, (Key.output, v) ∈ l → w.canWrite v = true ∧ v ≠ m)
    {e : Env} {z : Cz} (hz : z.Good) {g : Gx} {syms : List Sym} {R : Nat → List RawEntry} (h : OwnFile e z g syms R f) (hacr : g.acros = some [])
    (h0 : ZeroEmpty g) (hu : ∀ u, g.uel = some u → u.ents.length < 2147483647) :
    ∃ a lt, openRead z Gx.new (.content f) = .ok (a, (true, 0)) ∧ g.texts = some lt ∧ ∀ (K : Nat → List Int) (fuel : Nat),
      (∀ n s, n + 1 < syms.length → syms[n]? = some s → s.typ = 0 → (contentOf syms R ((n : Int) + 1)).2.length < fuel ∧
        ∀ outs, Delivered SVTab.default (acrOf a) (contentOf syms R ((n : Int) + 1)).1 (contentOf syms R ((n : Int) + 1)).2 outs → TextNrs outs (K n)) →
      (∀ u, g.uel = some u → u.ents.length < fuel) →
      ∃ res t c m M, ∃ rows : List Str, gdxdump w z fuel dtoa (file :: args) = .ok res ∧ res.code = 0 ∧ OutputIs l t res ∧
        IsLines t ([str "Count of set text strings in GDX: " ++ c, str "max 0-based textIdx found in GDX: " ++ m, str "   idx   text"] ++ rows) ∧
        IntText.IsIntStr c lt.length ∧ m = intToStr M ∧
        0 ≤ M ∧ (∀ n s k, n + 1 < syms.length → syms[n]? = some s → s.typ = 0 → k ∈ K n → k ≤ M) ∧ (M = 0 ∨ ∃ n s, n + 1 < syms.length ∧ syms[n]? = some s ∧ s.typ = 0 ∧ M ∈ K n) ∧
        rows.length = lt.length ∧ ∀ (i : Nat) (p : Str × Int) (row : Str), lt[i]? = some p → rows[i]? = some row → TextLine i p.1 row := by
  obtain ⟨a0, lt, hop, hl, hC⟩ := C81_texts_partial hz h h0 hu
  obtain ⟨r, ht, hin, hdt, hrun⟩ := own_run (dtoa := dtoa) ha hm hlen hp hbad hcon (hno _ (by decide)) hn hd hw hop
  have hfr := list_front ht (hno _ (by decide)) (hno _ (by decide)) (own_acronyms hz h hacr hop)
  refine ⟨a0, lt, hop, hl, fun K fuel h1 h2 => ?_⟩
  obtain ⟨g', t, c, m, M, rows, b1, b2⟩ := hC K fuel h1 h2
  obtain ⟨res, e1, e2, e3⟩ := hrun fuel [] t 0 hfr (by
    unfold body
    rw [wants_act ht (hno _ (by decide)) hk]
    dsimp only [listAct]
    rw [b1]
    rfl)
  exact ⟨res, t, c, m, M, rows, e1, e2, e3, b2⟩

/-- C84 with UelTable, with C71, for files without acronyms: if gdxdump has a defined end, its output begins with a set of this name that has the elements of the file, in their order; the rest is what it
    writes without UelTable (what `body` says). What is missing: as in C79; Format=csv (`C84_uels`), files with acronyms, and NoData. -/
theorem C84_uelTable_partial {w : World} {z : Cz} {fuel : Nat} {dtoa : Dbl → Digits} {file : Str} {args : List Str} {l : List (Key × Str)} (ha : ¬ SameNoCase file (str "AUDIT"))
    (hm : Means args l false) (hlen : ∀ a ∈ args, a.length ≤ 254) (hp : DumpOpts.Plain l) (hbad : ¬ Bad l false) (hcon : ¬ Conflict l)
    (hno : ∀ k ∈ [Key.noData, .version], ¬ DumpOpts.Given l k) (hfmt : ¬ FormatOf l .csv) {x : Str} (hx : (Key.uelTable, x) ∈ l)
    {m : Str} (hn : InName (fun n => (w.disk n).isSome) file m) {f : List UInt8} (hd : w.disk m = some f) (hw : ∀ v, (Key.output, v) ∈ l → w.canWrite v = true)
    {e : Env} (hz : z.Good) {g : Gx} {syms : List Sym} {R : Nat → List RawEntry} (h : OwnFile e z g syms R f) (hacr : g.acros = some []) {u : Uel} (hu : g.uel = some u)
    {res : Result} (hrun : gdxdump w z fuel dtoa (file :: args) = .ok res) :
    ∃ a r t rest, openRead z Gx.new (.content f) = .ok (a, (true, 0)) ∧ Takes (fun n => (w.disk n).isSome) file l r ∧ body r z fuel a = .ok (rest, res.code) ∧
      (u.strs ≠ [] → (res.file.map Prod.snd).getD res.std = str "\nSet " ++ x ++ str " /" ++ t ++ rest ∧ dataList 1 t = some (u.strs.map fun s => ([s], []), [59, 10])) ∧
      (u.strs = [] → (res.file.map Prod.snd).getD res.std = str "\n$onEmpty\nSet " ++ x ++ str "(*) /" ++ t ++ rest ∧ dataList 1 t = some ([], str ";\n$offEmpty\n")) := by
  obtain ⟨a0, _, hop, hs, _, hue⟩ := h.content hz
  obtain ⟨r, ht, hin, hdt, hst⟩ := own_start (dtoa := dtoa) ha hm hlen hp hbad hcon (hno _ (by decide)) hn hd hop
  rw [hst] at hrun
  have hl := dump_leaves hrun
  have hf : r.fmt ≠ .csv := fun hc => hfmt (hc ▸ ht.fmt)
  have hux : r.uels = x := by
    rcases ht.uels with ⟨h1, _⟩ | h1
    · exact absurd ⟨x, hx⟩ h1
    · exact once_unique hbad (by decide) h1 hx
  have hx0 : x ≠ [] := by
    rintro rfl
    exact hbad (.value hx (.empty (by decide)))
  have hdata : r.opt.data = true := by
    cases hh : r.opt.data with
    | true => rfl
    | false => exact absurd (ht.data.mp hh).1 (hno _ (by decide))
  rcases hl with ⟨h1, h2, _⟩ | ⟨_, p, rest, l1, l2, l3, l4, _⟩
  · rcases ht.out with ⟨_, h3⟩ | h3
    · exact absurd h3 h1
    · rw [hw _ h3] at h2; cases h2
  obtain ⟨strs, t, s1, s2⟩ := C71_labels hs.fresh x
  rw [hue, hu] at s1
  injection s1 with s1
  have hout : (res.file.map Prod.snd).getD res.std = p ++ rest := by
    by_cases ho : r.out = []
    · obtain ⟨k1, k2⟩ := l3 ho
      simp [k1, k2]
    · obtain ⟨k1, k2⟩ := l4 ho
      simp [k2]
  have hpp : ∀ s, writeUelTable a0 x = .ok s → p = 10 :: s := by
    intro s hs
    unfold front at l1
    rw [if_neg hf, own_acronyms hz h hacr hop, Res.bind_ok] at l1
    dsimp only at l1
    rw [if_neg (by rw [hux]; simp [hx0, hf]), hux, hs] at l1
    simp [Res.bind_ok, Res.pure_eq, hdata] at l1
    exact l1.symm
  refine ⟨a0, r, t, rest, hop, ht, l2, fun h0 => ?_, fun h0 => ?_⟩
  · rw [← s1, if_neg h0] at s2
    refine ⟨?_, s2.2⟩
    rw [hout, hpp _ s2.1]
    have e1 : (10 : UInt8) :: [83, 101, 116, 32] = str "\nSet " := by decide +kernel
    have e2 : ([32, 47] : Str) = str " /" := by decide +kernel
    rw [← e1, ← e2]
    simp
  · rw [← s1, if_pos h0] at s2
    refine ⟨?_, by rw [s2.2]; decide +kernel⟩
    rw [hout, hpp _ s2.1]
    have e1 : (10 : UInt8) :: [36, 111, 110, 69, 109, 112, 116, 121, 10, 83, 101, 116, 32] = str "\n$onEmpty\nSet " := by decide +kernel
    have e2 : ([40, 42, 41, 32, 47] : Str) = str "(*) /" := by decide +kernel
    rw [← e1, ← e2]
    simp

/-! ## examples -/

/-- CSV, as rows and as a table -/
example : runOf exGams ["a", "Symb=p", "Format=csv"] = .ok { code := 0, std := str "\"i\",\"Dim2\",\"Val\"\n\"a b\",\"x\",1.5\n\"c'd\",\"x\",Eps\n" } ∧
    runOf exGams ["a", "Symb=P", "Format", "csv", "CDim=Y", "Delim=semicolon", "DecimalSep=comma", "Output=x"] =
      .ok { code := 0, file := some (str "x", str "\"i\";\"x\"\n\"a b\";1,5\n\"c'd\";Eps\n") } ∧
    runOf exGams ["a", "Symb=P", "Format=csv", "CDim=Y", "NoHeader"] = .ok { code := 0, std := str "\"a b\",1.5\n\"c'd\",Eps\n" } ∧
    runOf exGams ["a", "Symb=zz", "Format=csv"] = .ok { code := 6, std := str "Symbol not found: zz\n" } := by decide +kernel

example : csvRead 59 (str "\"i\";\"x\"\n\"a b\";1,5\n\"c'd\";Eps\n") = some [[str "i", str "x"], [str "a b", str "1,5"], [str "c'd", str "Eps"]] := by decide +kernel

/-- assignments -/
example : (do
    let r ← runOf exBas ["a", "Format=gamsbas"]
    pure (r.code, (basis r.std).map fun (x : List Assign × Bool) => (x.1.length, x.2))) = .ok (0, some (8, true)) := by decide +kernel

example : runOf exBas ["a", "Format=gamsbas", "Symb=E"] = .ok { code := 0, std := str "* no\n e.M (\"c'd\") = 1.5 ;\n e.M ('x') = Eps ;\n\n" } ∧
    runOf exBas ["a", "Format=gamsbas", "Symb=no"] = .ok { code := 6, std := str "Symbol not found: no\n" } := by decide +kernel

/-- lists; the first one of two -/
example : runOf exGams ["a", "Symbols", "SymbolsAsSet"] = .ok { code := 0, std := str ("  Symbol Dim Type Records  Explanatory text\n1 i        1  Set       2  the set\n" ++
      "2 p        2  Par       2  5/6\n3 s        0  Par       1  (one)\n4 v        0  Var       1  \n") } ∧
    runOf exGams ["a", "SymbolsAsSet"] = .ok { code := 0, std := str ("alias (Symbol, Dim, Type, *);\nset    gdxitems(Symbol,Dim,Type)  Items in the GDX file /\n\"i\".1.\"Set\" \"the set\",\n" ++
      "\"p\".2.\"Par\" \"5/6\",\n\"v\".0.\"Var\",\n\"s\".0.\"Par\" \"(one)\"\n/;\n") } ∧
    runOf exGams ["a", "SymbolsAsSetDI", "Symb=zz"] = .ok { code := 0, std := str ("alias (Symbol, Dim, Type, Domain, *);\nset    gdxitemsDI(Symbol,Dim,Type,Domain)  Items in the GDX file /\n" ++
      "\"i\".1.\"Set\".\"*\",\n\"p\".2.\"Par\".\"i, *\",\n\"v\".0.\"Var\".\"\",\n\"s\".0.\"Par\".\"\"\n/;\n") } ∧
    runOf exGams ["a", "DomainInfo"] = .ok { code := 0, std := str "SyNr  Type  DomInf Symbol\n   1   Set    None i(*)\n   2   Par Regular p(i, *)\n   4   Par    None s\n   3   Var    None v\n" } ∧
    runOf exGams ["a", "SetText"] = .ok { code := 0, std := str "Count of set text strings in GDX: 2\nmax 0-based textIdx found in GDX: 1\n   idx   text\n     0   \"\"\n     1   \"it's\"\n" } := by decide +kernel

/-- the elements before a list -/
example : runOf exGams ["a", "UelTable=u", "DomainInfo"] = .ok { code := 0, std := str ("\nSet u /\n  'a b' ,\n  \"c'd\" ,\n  'x' /;\n" ++
    "SyNr  Type  DomInf Symbol\n   1   Set    None i(*)\n   2   Par Regular p(i, *)\n   4   Par    None s\n   3   Var    None v\n") } := by decide +kernel

/-- SymbolsAsSet is wanted if DomainInfo is given too, and DomainInfo is not -/
example : Wants [(.domainInfo, []), (.asSet, [])] .asSet := ⟨[.symbols], [.asSetDI, .domainInfo, .setText], rfl, ⟨[], by simp⟩, by simp [DumpOpts.Given]⟩

#print axioms C84_csv_partial
#print axioms C84_bas_partial
#print axioms C84_bas_symb_partial
#print axioms C84_lists_partial
#print axioms C84_texts_partial
#print axioms C84_uelTable_partial

end Gdx.Props
