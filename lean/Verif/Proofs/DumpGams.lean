import Verif.Proofs.GamsDecl
import Verif.Proofs.DumpTable

/-!
gdxdump: the declaration of a symbol.
-/

namespace Gdx.Dump
open Gdx Gdx.Gams

/-- the label can be quoted -/
def QLabel (g : Gx) (n : Int) (s : Str) : Prop := LabelIs g n s ∧ OneQuote s

theorem View.qlabel {g0 g : Gx} (h : View g0 g) {n : Int} {s : Str} (hl : QLabel g0 n s) : QLabel g n s := ⟨h.label hl.1, hl.2⟩

theorem gKeys_ok {o : GOpt} {g : Gx} {ks : List Int} {ls : List Str} (h : List.Forall₂ (QLabel g) ks ls) : gKeys o g ks = .ok (ls.map writeUEL, 0) := by
  induction h with
  | nil => rfl
  | cons h1 _ ih =>
    unfold gKeys
    rw [h1.1.uelAs, Res.bind_ok, ih]
    rfl

theorem View.body {g0 g : Gx} (h : View g0 g) (o : GOpt) (dim typ : Nat) (vals : List Dbl) (k : Nat) : gBody o g dim typ vals k = gBody o g0 dim typ vals k := by
  unfold gBody
  simp only [h.wrVal, h.text]

/-- an entry on a line -/
structure LineOk (t : Str) : Prop where
  no10 : (10 : UInt8) ∉ t
  head : t.head? ≠ some 42
  ne : t ≠ []

/-- what is written for a value of a record: nothing, or an entry -/
inductive ItemIs (o : GOpt) (g : Gx) (dim typ : Nat) (defs : List Dbl) (n : Nat) (r : RecOut Int) (k : Nat) : List Str → List (List Str × Str) → Prop
  | drop : dropped o dim typ defs r.vals k = .ok true → ItemIs o g dim typ defs n r k [] []
  | keep {ls : List Str} {s : Str} {e : List Str × Str} : dropped o dim typ defs r.vals k = .ok false → List.Forall₂ (QLabel g) r.key ls → gBody o g dim typ r.vals k = .ok s →
      IsEntry n (joined o.delim (ls.map writeUEL) ++ s) e → LineOk (joined o.delim (ls.map writeUEL) ++ s) →
      ItemIs o g dim typ defs n r k [joined o.delim (ls.map writeUEL) ++ s] [e]

/-- entries with the separator, the first one without it if nothing is written yet -/
def sepFrom (sep : Str) (first : Bool) (ts : List Str) : Str := if first then sepText sep ts else (ts.map (sep ++ ·)).flatten

theorem sepFrom_append (sep : Str) (first : Bool) (a b : List Str) : sepFrom sep first (a ++ b) = sepFrom sep first a ++ sepFrom sep (first && a.isEmpty) b := by
  unfold sepFrom
  cases first with
  | false => simp
  | true =>
    cases a with
    | nil => simp [sepText]
    | cons t a => simp [sepText]

theorem gItem_ok {o : GOpt} {g0 g : Gx} (hv : View g0 g) {dim typ : Nat} {defs : List Dbl} {n : Nat} {r : RecOut Int} {k : Nat} {ts : List Str} {es : List (List Str × Str)}
    (h : ItemIs o g0 dim typ defs n r k ts es) (first : Bool) : gItem o g dim typ defs first r k = .ok (sepFrom (gSep dim typ) first ts, first && ts.isEmpty, 0) := by
  cases h with
  | drop h =>
    unfold gItem
    rw [h, Res.bind_ok, if_pos rfl]
    cases first <;> simp [sepFrom, sepText]
  | keep h hl hb _ _ =>
    unfold gItem
    rw [h, Res.bind_ok, if_neg (by decide), gKeys_ok (hl.imp fun _ _ hh => hv.qlabel hh)]
    simp only [Res.bind_ok, hv.body, hb, Res.pure_eq]
    cases first <;> simp [sepFrom, sepText]

/-- the values of a record -/
inductive ItemsAre (o : GOpt) (g : Gx) (dim typ : Nat) (defs : List Dbl) (n : Nat) (r : RecOut Int) : List Nat → List Str → List (List Str × Str) → Prop
  | nil : ItemsAre o g dim typ defs n r [] [] []
  | cons {k : Nat} {ks : List Nat} {ts ts' : List Str} {es es' : List (List Str × Str)} : ItemIs o g dim typ defs n r k ts es → ItemsAre o g dim typ defs n r ks ts' es' →
      ItemsAre o g dim typ defs n r (k :: ks) (ts ++ ts') (es ++ es')

theorem ItemIs.entries {o : GOpt} {g : Gx} {dim typ : Nat} {defs : List Dbl} {n : Nat} {r : RecOut Int} {k : Nat} {ts : List Str} {es : List (List Str × Str)}
    (h : ItemIs o g dim typ defs n r k ts es) : List.Forall₂ (IsEntry n) ts es ∧ ∀ t ∈ ts, LineOk t := by
  cases h with
  | drop => exact ⟨.nil, fun t ht => by cases ht⟩
  | keep _ _ _ he hl => exact ⟨.cons he .nil, fun t ht => by rw [List.mem_singleton.mp ht]; exact hl⟩

theorem ItemsAre.entries {o : GOpt} {g : Gx} {dim typ : Nat} {defs : List Dbl} {n : Nat} {r : RecOut Int} {ks : List Nat} {ts : List Str} {es : List (List Str × Str)}
    (h : ItemsAre o g dim typ defs n r ks ts es) : List.Forall₂ (IsEntry n) ts es ∧ ∀ t ∈ ts, LineOk t := by
  induction h with
  | nil => exact ⟨.nil, fun t ht => by cases ht⟩
  | cons h1 _ ih =>
    obtain ⟨a1, a2⟩ := h1.entries
    exact ⟨forall₂_append a1 ih.1, fun t ht => (List.mem_append.mp ht).elim (a2 t) (ih.2 t)⟩

theorem gItems_ok {o : GOpt} {g0 g : Gx} (hv : View g0 g) {dim typ : Nat} {defs : List Dbl} {n : Nat} {r : RecOut Int} {ks : List Nat} {ts : List Str} {es : List (List Str × Str)}
    (h : ItemsAre o g0 dim typ defs n r ks ts es) : ∀ first, gItems o g dim typ defs r first ks = .ok (sepFrom (gSep dim typ) first ts, first && ts.isEmpty, 0) := by
  induction h with
  | nil => intro first; cases first <;> rfl
  | cons h1 _ ih =>
    rename_i k ks ts ts' es es' h2
    intro first
    unfold gItems
    rw [gItem_ok hv h1]
    simp only [Res.bind_ok, ih, Res.pure_eq, sepFrom_append]
    cases first <;> cases ts <;> simp

/-- the records of a symbol -/
inductive RowsAre (o : GOpt) (g : Gx) (dim typ : Nat) (defs : List Dbl) (n : Nat) : List (RecOut Int) → List Str → List (List Str × Str) → Prop
  | nil : RowsAre o g dim typ defs n [] [] []
  | cons {r : RecOut Int} {rs : List (RecOut Int)} {ts ts' : List Str} {es es' : List (List Str × Str)} : ItemsAre o g dim typ defs n r (gFields typ) ts es →
      RowsAre o g dim typ defs n rs ts' es' → RowsAre o g dim typ defs n (r :: rs) (ts ++ ts') (es ++ es')

theorem RowsAre.entries {o : GOpt} {g : Gx} {dim typ : Nat} {defs : List Dbl} {n : Nat} {rs : List (RecOut Int)} {ts : List Str} {es : List (List Str × Str)}
    (h : RowsAre o g dim typ defs n rs ts es) : List.Forall₂ (IsEntry n) ts es ∧ ∀ t ∈ ts, LineOk t := by
  induction h with
  | nil => exact ⟨.nil, fun t ht => by cases ht⟩
  | cons h1 _ ih =>
    obtain ⟨a1, a2⟩ := h1.entries
    exact ⟨forall₂_append a1 ih.1, fun t ht => (List.mem_append.mp ht).elim (a2 t) (ih.2 t)⟩

theorem gRows_ok {o : GOpt} {g0 : Gx} {dim typ : Nat} {defs : List Dbl} {n : Nat} :
    ∀ {g gE : Gx} {outs : List (RecOut Int)} {ts : List Str} {es : List (List Str × Str)} {f : Nat} {first : Bool}, DeliversRaw g outs gE → g.fixed = g0.fixed → g.nextAuto ≤ 0 → g.nrMapped = 0 →
      RowsAre o g0 dim typ defs n outs ts es → outs.length < f → gRows o dim typ defs f g first = .ok (gE, sepFrom (gSep dim typ) first ts, 0)
  | g, gE, _, _, _, 0, _, _, _, _, _, _, hf => by omega
  | g, gE, _, _, _, f + 1, first, .done h, _, _, _, .nil, _ => by
    unfold gRows
    rw [h]
    cases first <;> rfl
  | g, gE, _, _, _, f + 1, first, .next (g1 := g1) (r := r) (rs := rs) h hr, hfix, ha, hn, .cons hx hxs, hf => by
    have fx := dataReadRaw_fix ha hn h
    have hfix' : g1.fixed = g0.fixed := fx.fix.trans hfix
    rename_i ts ts' es es'
    have s1 := gItems_ok (View.of_fixed hfix') hx first
    have t1 := gRows_ok (f := f) (first := first && ts.isEmpty) hr hfix' (by rw [RFix.auto fx.fix]; exact ha) ((congrArg Fixed.nrm fx.fix).trans hn) hxs (by simp at hf; omega)
    unfold gRows
    rw [h]
    simp only [Res.bind_ok, s1, t1, Res.pure_eq, sepFrom_append]

/-! ### comments -/

theorem comments_ok {g : Gx} {nr : Int} {s : Sym} (hs : g.symAt nr = some s) {cs : List Str} (hc : s.comments = cs.map some) :
    ∀ (f k : Nat), cs.length < k + f → k ≤ cs.length → comments g nr f ((k : Int) + 1) = .ok ((cs.drop k).map fun s => [42, 32] ++ s ++ [10]).flatten
  | 0, k, h, h' => by omega
  | f + 1, k, h, h' => by
    have hlen : s.comments.length = cs.length := by rw [hc]; simp
    by_cases hk : k = cs.length
    · have : symbolGetComment g nr ((k : Int) + 1) = .ok (false, []) := by
        unfold symbolGetComment
        rw [hs]
        simp only
        rw [if_neg (by omega)]
      unfold comments
      rw [this, Res.bind_ok]
      dsimp only
      rw [if_neg (by decide), hk, List.drop_length]
      rfl
    · have hlt : k < cs.length := by omega
      have : symbolGetComment g nr ((k : Int) + 1) = .ok (true, cs[k]) := by
        unfold symbolGetComment
        rw [hs]
        simp only
        rw [if_pos (by omega), show ((k : Int) + 1 - 1).toNat = k by omega, hc, List.getElem?_map, List.getElem?_eq_getElem hlt]
        rfl
      have ih := comments_ok hs hc f (k + 1) (by omega) (by omega)
      unfold comments
      rw [this, Res.bind_ok]
      dsimp only
      rw [if_pos rfl]
      push_cast at ih
      rw [ih, Res.bind_ok, List.drop_eq_getElem_cons hlt]
      rfl

end Gdx.Dump
