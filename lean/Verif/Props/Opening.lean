import Verif.Spec.Layout
import Verif.Model.Api
import Verif.Proofs.StrHash
import Verif.Proofs.Prim
import Verif.Proofs.Hist
import Verif.Props.ByteOrder

/-!
C41: opening checks the structure of the file.
-/

namespace Gdx.Props

open Gdx Gdx.Spec

theorem decLE_leNat : ∀ l, decLE l = leNat l
  | [] => rfl
  | _ :: l => by unfold decLE leNat; rw [decLE_leNat l]

theorem rdBytes_some {n : Nat} {l b r : List UInt8} (h : rdBytes n l = some (b, r)) : l = b ++ r ∧ b.length = n := by
  unfold rdBytes at h
  split at h
  · cases h
    exact ⟨(List.take_append_drop _ _).symm, by simp; omega⟩
  · cases h

theorem rdInt_some {l r : List UInt8} {x : Int} (h : rdInt l = some (x, r)) : ∃ b, l = b ++ r ∧ IsInt 4 b x := by
  unfold rdInt at h
  cases hb : rdBytes 4 l with
  | none => rw [hb] at h; cases h
  | some p =>
    rw [hb] at h
    cases h
    obtain ⟨h1, h2⟩ := rdBytes_some hb
    refine ⟨p.1, h1, h2, ?_⟩
    rw [← decLE_leNat]
    unfold toI32
    split <;> split <;> norm_num at * <;> omega

theorem rdInt64_some {l r : List UInt8} {x : Int} (h : rdInt64 l = some (x, r)) : ∃ b, l = b ++ r ∧ IsInt 8 b x := by
  unfold rdInt64 at h
  cases hb : rdBytes 8 l with
  | none => rw [hb] at h; cases h
  | some p =>
    rw [hb] at h
    cases h
    obtain ⟨h1, h2⟩ := rdBytes_some hb
    refine ⟨p.1, h1, h2, ?_⟩
    rw [← decLE_leNat]
    unfold toI64
    split <;> split <;> norm_num at * <;> omega

theorem rdByte_some {l r : List UInt8} {x : UInt8} (h : rdByte l = some (x, r)) : l = x :: r := by
  cases l with
  | nil => cases h
  | cons a l => cases h; rfl

theorem rdString_some {l r : List UInt8} {s : Str} (h : rdString l = some (s, r)) :
    ∃ n, l = (n :: s) ++ r ∧ s.length = n.toNat := by
  unfold rdString at h
  obtain ⟨⟨n, l'⟩, h1, h2⟩ := Option.bind_eq_some_iff.mp h
  obtain ⟨h3, h4⟩ := rdBytes_some h2
  exact ⟨n, by rw [rdByte_some h1, h3]; rfl, h4⟩

theorem rdString_isStr {l r : List UInt8} {s : Str} (h : rdString l = some (s, r)) : ∃ b, l = b ++ r ∧ IsStr b := by
  obtain ⟨n, h1, h2⟩ := rdString_some h
  exact ⟨_, h1, n, s, rfl, h2⟩

theorem rdCStr_some {l r : List UInt8} {s : Str} (h : rdCStr l = some (s, r)) : ∃ b, l = b ++ r ∧ IsStr b := by
  unfold rdCStr at h
  obtain ⟨⟨s', l'⟩, h1, h2⟩ := Option.bind_eq_some_iff.mp h
  cases h2
  exact rdString_isStr h1

theorem rdMany_some {α : Type} {rd : Rd α} {P : List UInt8 → Prop} (hp : ∀ l a r, rd l = some (a, r) → ∃ b, l = b ++ r ∧ P b) :
    ∀ (n : Nat) (l : List UInt8) (as : List α) (r : List UInt8), rdMany rd n l = some (as, r) → ∃ b, l = b ++ r ∧ Items P n b
  | 0, l, as, r, h => by cases h; exact ⟨[], rfl, .nil⟩
  | n + 1, l, as, r, h => by
    unfold rdMany at h
    obtain ⟨⟨a, l1⟩, h1, h2⟩ := Option.bind_eq_some_iff.mp h
    obtain ⟨⟨as', l2⟩, h3, h4⟩ := Option.bind_eq_some_iff.mp h2
    cases h4
    obtain ⟨b, rfl, hb⟩ := hp _ _ _ h1
    obtain ⟨c, rfl, hc⟩ := rdMany_some hp n _ _ _ h3
    exact ⟨b ++ c, by rw [List.append_assoc], .cons hb hc⟩

theorem rdOk_some {α : Type} {rd : Rd α} {l : List UInt8} {x : α × List UInt8} (h : rdOk rd l = .ok x) : rd l = some x := by
  unfold rdOk need at h
  cases hr : rd l with
  | none => rw [hr] at h; cases h
  | some y => rw [hr] at h; cases h; rfl

theorem items_length {P : List UInt8 → Prop} {k : Nat} (hp : ∀ b, P b → b.length = k) : ∀ {n : Nat} {b : List UInt8}, Items P n b → b.length = k * n
  | _, _, .nil => by simp
  | _, _, .cons h1 h2 => by
    rw [List.length_append, hp _ h1, items_length hp h2, Nat.mul_add, Nat.mul_one, Nat.add_comm]

/-! ### strings and marks -/

/-- a string that contains no 0 is read in full -/
theorem rdStrE_eq {l : List UInt8} {s : Str} {r : List UInt8} (hs : s ≠ []) (hz : (0 : UInt8) ∉ s) (h : rdStrE l = (s, r)) :
    ∃ n, l = (n :: s) ++ r ∧ s.length = n.toNat := by
  cases l with
  | nil => cases h; exact absurd rfl hs
  | cons n l =>
    unfold rdStrE at h
    obtain ⟨h1, h2⟩ := Prod.mk.inj h
    by_cases hl : n.toNat ≤ l.length
    · have e : n.toNat - l.length = 0 := by omega
      rw [e, List.replicate_zero, List.append_nil] at h1
      refine ⟨n, ?_, ?_⟩
      · rw [← h1, ← h2]; simp
      · rw [← h1, List.length_take]; omega
    · exfalso
      apply hz
      rw [← h1]
      apply List.mem_append_right
      rw [List.mem_replicate]
      exact ⟨by omega, rfl⟩

theorem rdStrE_mark {m l : List UInt8} (hm : m ≠ []) (hz : (0 : UInt8) ∉ m) :
    (rdStrE l).1 = m → l = (UInt8.ofNat m.length :: m) ++ (rdStrE l).2 := by
  intro h
  obtain ⟨n, h1, h2⟩ := rdStrE_eq hm hz (Prod.ext h rfl : rdStrE l = (m, (rdStrE l).2))
  rw [h2, UInt8.ofNat_toNat]
  exact h1

theorem rdStrE_nomark {m l : List UInt8} (hl : m.length ≤ 255) (h : (rdStrE l).1 ≠ m) : ¬ HasMark m l := by
  rintro ⟨r, rfl⟩
  apply h
  have : (UInt8.ofNat m.length).toNat = m.length := by
    rw [UInt8.toNat_ofNat']; omega
  simp [rdStrE, this]

theorem sameNoCase_length {a b : List UInt8} (h : SameNoCase a b) : a.length = b.length := by
  have := congrArg List.length h
  simpa using this

theorem lower_zero : Spec.lower 0 = 0 := by decide

theorem product_yes {l : List UInt8} (h : sameText false (rdStrE l).1 headerId = true) :
    ∃ s, SameNoCase s productName ∧ l = 7 :: (s ++ (rdStrE l).2) := by
  have hs : SameNoCase (rdStrE l).1 productName := by
    have := (sameText_iff false _ _).mp h
    exact this
  have hlen := sameNoCase_length hs
  have h0 : (0 : UInt8) ∉ (rdStrE l).1 := by
    intro hc
    have := List.mem_map_of_mem (f := Spec.lower) hc
    rw [show (rdStrE l).1.map Spec.lower = productName.map Spec.lower from hs, lower_zero] at this
    exact absurd this (by decide)
  have hne : (rdStrE l).1 ≠ [] := by
    intro hc; rw [hc] at hlen; cases hlen
  obtain ⟨n, h1, h2⟩ := rdStrE_eq hne h0 (Prod.ext rfl rfl : rdStrE l = ((rdStrE l).1, (rdStrE l).2))
  refine ⟨_, hs, ?_⟩
  have : n = 7 := by
    apply UInt8.toNat_inj.mp
    rw [← h2, hlen]; rfl
  rw [this] at h1
  exact h1

theorem product_no {l : List UInt8} (h : sameText false (rdStrE l).1 headerId = false) : ¬ HasProduct l := by
  rintro ⟨s, h1, r, rfl⟩
  have hlen : s.length = 7 := sameNoCase_length h1
  have : (rdStrE (7 :: s ++ r)).1 = s := by
    have e : (7 : UInt8).toNat = 7 := rfl
    simp [rdStrE, e, hlen]
  rw [this] at h
  rw [(sameText_iff false s headerId).mpr h1] at h
  cases h

/-- a string read at the end of the file leaves nothing behind it -/
theorem rdStrE_full {l : List UInt8} (h : (rdStrE l).2 ≠ []) :
    ∃ n, l = (n :: (rdStrE l).1) ++ (rdStrE l).2 ∧ (rdStrE l).1.length = n.toNat := by
  cases l with
  | nil => exact absurd rfl h
  | cons n l =>
    have h' : l.drop n.toNat ≠ [] := h
    have hl : n.toNat < l.length := by
      by_contra hc
      exact h' (List.drop_eq_nil_of_le (by omega))
    have e : n.toNat - l.length = 0 := by omega
    refine ⟨n, ?_, ?_⟩
    · simp [rdStrE, e]
    · simp [rdStrE, e]; omega

/-! ### parts of the tables -/

theorem rdDomSyms_some {l r : List UInt8} {d : Int} {x : Option (List Int)} (h : rdDomSyms d l = some (x, r)) :
    ∃ ds, l = ds ++ r ∧ (ds = [0] ∨ ∃ y q, y ≠ 0 ∧ 0 ≤ d ∧ ds = y :: q ∧ q.length = 4 * d.toNat) := by
  unfold rdDomSyms at h
  obtain ⟨⟨b, l1⟩, h1, h2⟩ := Option.bind_eq_some_iff.mp h
  have hl := rdByte_some h1
  simp only at h2
  split at h2
  · rename_i hb
    cases h2
    exact ⟨[0], by rw [hl, hb]; rfl, .inl rfl⟩
  · rename_i hb
    split at h2
    · cases h2
    · obtain ⟨⟨ds, l2⟩, h3, h4⟩ := Option.bind_eq_some_iff.mp h2
      cases h4
      obtain ⟨q, hq, hi⟩ := rdMany_some (P := fun b => b.length = 4) (fun l a r h => by
        obtain ⟨b, h1, h2⟩ := rdInt_some h
        exact ⟨b, h1, h2.1⟩) _ _ _ _ h3
      exact ⟨b :: q, by rw [hl, hq]; rfl, .inr ⟨b, q, hb, by omega, rfl, items_length (fun _ h => h) hi⟩⟩

theorem counted_some {α : Type} {rd : Rd α} {P : List UInt8 → Prop} {l l1 l2 : List UInt8} {n : Int} {d : Int} {as : List α}
    (hp : ∀ l a r, rd l = some (a, r) → ∃ b, l = b ++ r ∧ P b)
    (h1 : rdInt l = some (n, l1)) (h2 : rdMany rd (n - d).toNat l1 = some (as, l2)) : ∃ b, l = b ++ l2 ∧ Counted P d b := by
  obtain ⟨c, hc, hn⟩ := rdInt_some h1
  obtain ⟨b, hb, hi⟩ := rdMany_some hp _ _ _ _ h2
  exact ⟨c ++ b, by rw [hc, hb, List.append_assoc], c, n, b, rfl, hn, hi⟩

theorem counted_some0 {α : Type} {rd : Rd α} {P : List UInt8 → Prop} {l l1 l2 : List UInt8} {n : Int} {as : List α}
    (hp : ∀ l a r, rd l = some (a, r) → ∃ b, l = b ++ r ∧ P b)
    (h1 : rdInt l = some (n, l1)) (h2 : rdMany rd n.toNat l1 = some (as, l2)) : ∃ b, l = b ++ l2 ∧ Counted P 0 b :=
  counted_some (d := 0) hp h1 (by rw [Int.sub_zero]; exact h2)

theorem rdComments_some {l r : List UInt8} {x : List (Option Str)} (h : rdComments l = some (x, r)) : ∃ b, l = b ++ r ∧ Counted IsStr 0 b := by
  unfold rdComments at h
  obtain ⟨⟨n, l1⟩, h1, h2⟩ := Option.bind_eq_some_iff.mp h
  obtain ⟨⟨c, l2⟩, h3, h4⟩ := Option.bind_eq_some_iff.mp h2
  cases h4
  exact counted_some0 (fun l a r h => rdCStr_some h) h1 h3

theorem rdSym_some {v : Int} (hv : v ≤ 7) {l r : List UInt8} {s : Sym} (h : rdSym v l = some (s, r)) : ∃ b, l = b ++ r ∧ SymBytes v b := by
  unfold rdSym at h
  obtain ⟨⟨name, l1⟩, h1, h⟩ := Option.bind_eq_some_iff.mp h
  obtain ⟨⟨pos, l2⟩, h2, h⟩ := Option.bind_eq_some_iff.mp h
  obtain ⟨⟨dim, l3⟩, h3, h⟩ := Option.bind_eq_some_iff.mp h
  obtain ⟨⟨typ, l4⟩, h4, h⟩ := Option.bind_eq_some_iff.mp h
  obtain ⟨⟨ui, l5⟩, h5, h⟩ := Option.bind_eq_some_iff.mp h
  obtain ⟨⟨dc, l6⟩, h6, h⟩ := Option.bind_eq_some_iff.mp h
  obtain ⟨⟨er, l7⟩, h7, h⟩ := Option.bind_eq_some_iff.mp h
  obtain ⟨⟨st, l8⟩, h8, h⟩ := Option.bind_eq_some_iff.mp h
  obtain ⟨⟨ex, l9⟩, h9, h⟩ := Option.bind_eq_some_iff.mp h
  obtain ⟨⟨co, l10⟩, h10, h⟩ := Option.bind_eq_some_iff.mp h
  obtain ⟨⟨ds, l11⟩, h11, h⟩ := Option.bind_eq_some_iff.mp h
  obtain ⟨⟨cm, l12⟩, h12, h⟩ := Option.bind_eq_some_iff.mp h
  cases h
  obtain ⟨b1, rfl, p1⟩ := rdCStr_some h1
  obtain ⟨b2, rfl, p2⟩ : ∃ b, l1 = b ++ l2 ∧ b.length = (if v ≤ 5 then 4 else 8) := by
    simp only [rdPos] at h2
    split at h2
    · obtain ⟨b, hb, hi⟩ := rdInt_some h2; rename_i hc; exact ⟨b, hb, by rw [if_pos hc]; exact hi.1⟩
    · obtain ⟨b, hb, hi⟩ := rdInt64_some h2; rename_i hc; exact ⟨b, hb, by rw [if_neg hc]; exact hi.1⟩
  obtain ⟨b3, rfl, p3⟩ := rdInt_some h3
  have p4 := rdByte_some h4
  obtain ⟨b5, rfl, p5⟩ := rdInt_some h5
  obtain ⟨b6, rfl, p6⟩ := rdInt_some h6
  obtain ⟨b7, rfl, p7⟩ := rdInt_some h7
  have p8 := rdByte_some h8
  obtain ⟨b9, rfl, p9⟩ := rdCStr_some h9
  obtain ⟨b10, rfl, p10⟩ : ∃ b, l9 = b ++ l10 ∧ b.length = (if v ≤ 5 then 0 else 1) := by
    simp only [rdCo] at h10
    split at h10
    · rename_i hc
      exact ⟨[co], rdByte_some h10, by rw [if_neg (by omega)]; rfl⟩
    · rename_i hc
      cases h10
      exact ⟨[], rfl, by rw [if_pos (by omega)]; rfl⟩
  obtain ⟨b11, b12, rfl, p11⟩ : ∃ a b, l10 = a ++ (b ++ r) ∧
      (if v = 7 then (a = [0] ∨ ∃ x r, x ≠ 0 ∧ 0 ≤ dim ∧ a = x :: r ∧ r.length = 4 * dim.toNat) ∧ Counted IsStr 0 b
        else a = [] ∧ b = []) := by
    simp only [rdDs, rdCm] at h11 h12
    by_cases hc : v ≥ 7
    · have h7 : v = 7 := by omega
      rw [if_pos hc] at h11 h12
      obtain ⟨a, rfl, ha⟩ := rdDomSyms_some h11
      obtain ⟨b, rfl, hb⟩ := rdComments_some h12
      exact ⟨a, b, rfl, by rw [if_pos h7]; exact ⟨ha, hb⟩⟩
    · rw [if_neg hc] at h11 h12
      cases h11
      cases h12
      exact ⟨[], [], rfl, by rw [if_neg (by omega)]; exact ⟨rfl, rfl⟩⟩
  refine ⟨b1 ++ (b2 ++ (b3 ++ (typ :: ((b5 ++ (b6 ++ (b7 ++ [st]))) ++ (b9 ++ (b10 ++ (b11 ++ b12))))))), ?_,
    b1, b2, b3, dim, typ, b5 ++ (b6 ++ (b7 ++ [st])), b9, b10, b11, b12, rfl, p1, p2, p3, ?_, p9, p10, p11⟩
  · rw [p4, p8]; simp
  · have := p5.1; have := p6.1; have := p7.1; simp; omega

theorem rdAcr_some {l r : List UInt8} {a : Acr} (h : rdAcr l = some (a, r)) : ∃ b, l = b ++ r ∧ AcrBytes b := by
  unfold rdAcr at h
  obtain ⟨⟨n, l1⟩, h1, h⟩ := Option.bind_eq_some_iff.mp h
  obtain ⟨⟨t, l2⟩, h2, h⟩ := Option.bind_eq_some_iff.mp h
  obtain ⟨⟨m, l3⟩, h3, h⟩ := Option.bind_eq_some_iff.mp h
  cases h
  obtain ⟨b1, rfl, p1⟩ := rdString_isStr h1
  obtain ⟨b2, rfl, p2⟩ := rdString_isStr h2
  obtain ⟨b3, rfl, p3⟩ := rdInt_some h3
  exact ⟨b1 ++ (b2 ++ b3), by simp, b1, b2, b3, rfl, p1, p2, p3.1⟩

theorem rdAcros_some {l r : List UInt8} {a : List Acr} (h : rdAcros l = some (a, r)) : ∃ b, l = b ++ r ∧ Counted AcrBytes 0 b := by
  unfold rdAcros at h
  obtain ⟨⟨n, l1⟩, h1, h⟩ := Option.bind_eq_some_iff.mp h
  exact counted_some0 (fun l a r h => rdAcr_some h) h1 h

theorem rdRelaxed_ok : ∀ (fuel : Nat) (syms : List Sym) (l : List UInt8) (x : List Sym × List UInt8), rdRelaxed fuel syms l = .ok x →
    ∃ b, l = b ++ x.2 ∧ RelaxedBytes b
  | 0, _, _, _, h => by cases h
  | fuel + 1, syms, l, x, h => by
    unfold rdRelaxed at h
    obtain ⟨⟨n, l1⟩, h1, h2⟩ := Res.bind_eq_ok.mp h
    clear h
    obtain ⟨c, rfl, hc⟩ := rdInt_some (rdOk_some h1)
    simp only at h2
    split at h2
    · rename_i hn
      cases h2
      exact ⟨c, rfl, [], c, n, rfl, by simp, hc, hn⟩
    · obtain ⟨s, _, h3⟩ := Res.bind_eq_ok.mp h2
      clear h2
      split at h3
      · cases h3
      · obtain ⟨⟨d, l2⟩, h4, h⟩ := Res.bind_eq_ok.mp h3
        obtain ⟨q, rfl, hi⟩ := rdMany_some (P := fun b => b.length = 4) (fun l a r h => by
          obtain ⟨b, h1, h2⟩ := rdInt_some h
          exact ⟨b, h1, h2.1⟩) _ _ _ _ (rdOk_some h4)
        obtain ⟨b, hb, a, c', y, hb', ha, hy, hy0⟩ := rdRelaxed_ok fuel _ _ _ h
        simp only at hb
        have hql := items_length (fun _ h => h) hi
        refine ⟨c ++ (q ++ b), by rw [hb]; simp, c ++ (q ++ a), c', y, by rw [hb']; simp, ?_, hy, hy0⟩
        rw [List.length_append, List.length_append, hc.1, hql]
        omega

/-! ### the tables -/

/-- outcome of one table: success, or the error that belongs to the first missing mark -/
def TabRes (s : Sect) (l : Bytes) (g : Gx) (r : Gx × Bool) : Prop :=
  if r.2 = true then s.Ok l ∧ r.1.lastErr = g.lastErr else s.Fail r.1.lastErr l

/-- what the opening functions leave alone -/
structure Steady (g g' : Gx) : Prop where
  mode : g'.mode = g.mode
  stat : g'.stat = g.stat
  file : g'.file = g.file
  uncompr : g'.uncompr = g.uncompr
  ver : g'.verRead = g.verRead
  fs : g'.fsId = g.fsId

theorem Steady.refl (g : Gx) : Steady g g := ⟨rfl, rfl, rfl, rfl, rfl, rfl⟩
theorem Steady.trans {a b c : Gx} (h : Steady a b) (k : Steady b c) : Steady a c :=
  ⟨k.mode.trans h.mode, k.stat.trans h.stat, k.file.trans h.file, k.uncompr.trans h.uncompr, k.ver.trans h.ver, k.fs.trans h.fs⟩

theorem from_ok {z : Cz} {g : Gx} {p : Int} {l : List UInt8} (h : g.from z p = .ok l) : 0 ≤ p ∧ l = z.rd g.uncompr (g.file.drop p.toNat) := by
  unfold Gx.from at h
  split at h
  · cases h
  · cases h; exact ⟨by omega, rfl⟩

theorem Sect.fail1 {s : Sect} {l : Bytes} (hl : s.mark.length ≤ 255) (h : (rdStrE l).1 ≠ s.mark) : s.Fail s.code l :=
  .inl ⟨rdStrE_nomark hl h, rfl⟩

/-- one part -/
theorem Sect.fail2 {s : Sect} {l b l2 : Bytes} {P : Bytes → Prop} {c : Int} (hp : s.parts = [(P, c)]) (hl : s.mark.length ≤ 255)
    (hm : s.mark ≠ []) (hz : (0 : UInt8) ∉ s.mark) (h1 : (rdStrE l).1 = s.mark) (hb : (rdStrE l).2 = b ++ l2) (hc : P b)
    (h : (rdStrE l2).1 ≠ s.mark) : s.Fail c l := by
  refine .inr ⟨(rdStrE l).2, rdStrE_mark hm hz h1, ?_⟩
  rw [hp]
  exact .inl ⟨b, l2, hb, hc, rdStrE_nomark hl h, rfl⟩

theorem Sect.ok1 {s : Sect} {l b l2 : Bytes} {P : Bytes → Prop} {c : Int} (hp : s.parts = [(P, c)])
    (hm : s.mark ≠ []) (hz : (0 : UInt8) ∉ s.mark) (h1 : (rdStrE l).1 = s.mark) (hb : (rdStrE l).2 = b ++ l2) (hc : P b)
    (h : (rdStrE l2).1 = s.mark) : s.Ok l := by
  refine ⟨(rdStrE l).2, rdStrE_mark hm hz h1, ?_⟩
  rw [hp]
  exact ⟨b, (rdStrE l2).2, by rw [hb, ← rdStrE_mark hm hz h], hc, trivial⟩

theorem raise_lastErr {g : Gx} (h : g.lastErr = 0) (n : Int) : (g.raise n).lastErr = n := by
  unfold Gx.raise
  simp [h]

theorem raise_steady (g : Gx) (n : Int) : Steady g (g.raise n) := ⟨rfl, rfl, rfl, rfl, rfl, rfl⟩

theorem symbMark : markSymb.length ≤ 255 ∧ markSymb ≠ [] ∧ (0 : UInt8) ∉ markSymb := by decide
theorem uelMark : markUel.length ≤ 255 ∧ markUel ≠ [] ∧ (0 : UInt8) ∉ markUel := by decide

theorem openSyms_spec {z : Cz} {ix : Index} {g : Gx} (he : g.lastErr = 0) (hv : g.verRead ≤ 7) :
    (openSyms z ix g).All fun r => Steady g r.1 ∧ 0 ≤ ix.symb ∧ TabRes (symbSect g.verRead) (z.rd g.uncompr (g.file.drop ix.symb.toNat)) g r := by
  unfold openSyms
  refine Res.All.bind' fun l hl => ?_
  obtain ⟨hp, rfl⟩ := from_ok hl
  generalize z.rd g.uncompr (g.file.drop ix.symb.toNat) = l
  simp only
  by_cases h1 : (rdStrE l).1 = markSymb
  · rw [if_neg (fun hc => hc h1)]
    refine Res.All.bind' fun nl hn => ?_
    refine Res.All.bind' fun sl hs => ?_
    obtain ⟨n, l1⟩ := nl
    obtain ⟨syms, l2⟩ := sl
    obtain ⟨b, hb, hc⟩ := counted_some0 (fun l a r h => rdSym_some hv h) (rdOk_some hn) (rdOk_some hs)
    simp only
    by_cases hsy : syms = []
    · simp only [hsy, if_true]
      by_cases h2 : (rdStrE l2).1 = markSymb
      · rw [if_neg (fun hc => hc h2)]
        exact ⟨⟨rfl, rfl, rfl, rfl, rfl, rfl⟩, hp, Sect.ok1 rfl symbMark.2.1 symbMark.2.2 h1 hb hc h2, rfl⟩
      · rw [if_pos h2]
        refine ⟨⟨rfl, rfl, rfl, rfl, rfl, rfl⟩, hp, ?_⟩
        show Sect.Fail _ (Gx.raise _ _).lastErr _
        rw [raise_lastErr (by exact he)]
        exact Sect.fail2 rfl symbMark.1 symbMark.2.1 symbMark.2.2 h1 hb hc h2
    · simp only [if_neg hsy]
      by_cases h2 : (rdStrE l2).1 = markSymb
      · rw [if_neg (fun hc => hc h2)]
        exact ⟨⟨rfl, rfl, rfl, rfl, rfl, rfl⟩, hp, Sect.ok1 rfl symbMark.2.1 symbMark.2.2 h1 hb hc h2, rfl⟩
      · rw [if_pos h2]
        refine ⟨⟨rfl, rfl, rfl, rfl, rfl, rfl⟩, hp, ?_⟩
        show Sect.Fail _ (Gx.raise _ _).lastErr _
        rw [raise_lastErr (by exact he)]
        exact Sect.fail2 rfl symbMark.1 symbMark.2.1 symbMark.2.2 h1 hb hc h2
  · rw [if_pos h1]
    refine ⟨raise_steady _ _, hp, ?_⟩
    show Sect.Fail _ (Gx.raise _ _).lastErr _
    rw [raise_lastErr he]
    exact Sect.fail1 (s := symbSect g.verRead) symbMark.1 h1

theorem openUels_spec {z : Cz} {ix : Index} {g : Gx} (he : g.lastErr = 0) :
    (openUels z ix g).All fun r => Steady g r.1 ∧ 0 ≤ ix.uels ∧ TabRes (uelSect g.fsId) (z.rd g.uncompr (g.file.drop ix.uels.toNat)) g r := by
  unfold openUels
  refine Res.All.bind' fun l hl => ?_
  obtain ⟨hp, rfl⟩ := from_ok hl
  generalize z.rd g.uncompr (g.file.drop ix.uels.toNat) = l
  simp only
  by_cases h1 : (rdStrE l).1 = markUel
  · rw [if_neg (fun hc => hc h1)]
    refine Res.All.bind' fun nl hn => ?_
    refine Res.All.bind' fun sl hs => ?_
    obtain ⟨n, l1⟩ := nl
    obtain ⟨strs, l2⟩ := sl
    obtain ⟨b, hb, hc⟩ : ∃ b, (rdStrE l).2 = b ++ l2 ∧ Counted IsStr (if (g.fsId.drop 15).take 4 = [50, 48, 48, 49] then 1 else 0) b := by
      refine counted_some (fun l a r h => rdCStr_some h) (rdOk_some hn) (as := strs) ?_
      have := rdOk_some hs
      rw [← this]
      congr 2
      unfold is2001
      by_cases hq : (g.fsId.drop 15).take 4 = [50, 48, 48, 49]
      · simp [hq]
      · simp [hq]
    by_cases h2 : (rdStrE l2).1 = markUel
    · rw [if_neg (fun hc => hc h2)]
      exact ⟨⟨rfl, rfl, rfl, rfl, rfl, rfl⟩, hp, Sect.ok1 rfl uelMark.2.1 uelMark.2.2 h1 hb hc h2, rfl⟩
    · rw [if_pos h2]
      refine ⟨⟨rfl, rfl, rfl, rfl, rfl, rfl⟩, hp, ?_⟩
      show Sect.Fail _ (Gx.raise _ _).lastErr _
      rw [raise_lastErr (by exact he)]
      exact Sect.fail2 rfl uelMark.1 uelMark.2.1 uelMark.2.2 h1 hb hc h2
  · rw [if_pos h1]
    refine ⟨⟨rfl, rfl, rfl, rfl, rfl, rfl⟩, hp, ?_⟩
    show Sect.Fail _ (Gx.raise _ _).lastErr _
    rw [raise_lastErr (by exact he)]
    exact Sect.fail1 (s := uelSect g.fsId) uelMark.1 h1

theorem openTexts_spec {z : Cz} {ix : Index} {g : Gx} (he : g.lastErr = 0) :
    (openTexts z ix g).All fun r => Steady g r.1 ∧ 0 ≤ ix.text ∧ TabRes textSect (z.rd g.uncompr (g.file.drop ix.text.toNat)) g r := by
  unfold openTexts
  refine Res.All.bind' fun l hl => ?_
  obtain ⟨hp, rfl⟩ := from_ok hl
  generalize z.rd g.uncompr (g.file.drop ix.text.toNat) = l
  simp only
  by_cases h1 : (rdStrE l).1 = markSett
  · rw [if_neg (fun hc => hc h1)]
    refine Res.All.bind' fun nl hn => ?_
    refine Res.All.bind' fun sl hs => ?_
    obtain ⟨n, l1⟩ := nl
    obtain ⟨strs, l2⟩ := sl
    obtain ⟨b, hb, hc⟩ := counted_some0 (fun l a r h => rdCStr_some h) (rdOk_some hn) (rdOk_some hs)
    simp only
    refine Res.All.bind' fun tm _ => ?_
    by_cases h2 : (rdStrE l2).1 = markSett
    · rw [if_neg (fun hc => hc h2)]
      exact ⟨⟨rfl, rfl, rfl, rfl, rfl, rfl⟩, hp, Sect.ok1 rfl (by decide) (by decide) h1 hb hc h2, rfl⟩
    · rw [if_pos h2]
      refine ⟨⟨rfl, rfl, rfl, rfl, rfl, rfl⟩, hp, ?_⟩
      show Sect.Fail _ (Gx.raise _ _).lastErr _
      rw [raise_lastErr (by exact he)]
      exact Sect.fail2 rfl (by decide) (by decide) (by decide) h1 hb hc h2
  · rw [if_pos h1]
    refine ⟨⟨rfl, rfl, rfl, rfl, rfl, rfl⟩, hp, ?_⟩
    show Sect.Fail _ (Gx.raise _ _).lastErr _
    rw [raise_lastErr (by exact he)]
    exact Sect.fail1 (s := textSect) (by decide) h1

theorem openAcros_spec {z : Cz} {ix : Index} {g : Gx} (he : g.lastErr = 0) :
    (openAcros z ix g).All fun r => Steady g r.1 ∧ 0 ≤ ix.acro ∧ TabRes acroSect (z.rd g.uncompr (g.file.drop ix.acro.toNat)) g r := by
  unfold openAcros
  refine Res.All.bind' fun l hl => ?_
  obtain ⟨hp, rfl⟩ := from_ok hl
  generalize z.rd g.uncompr (g.file.drop ix.acro.toNat) = l
  simp only
  by_cases h1 : (rdStrE l).1 = markAcro
  · rw [if_neg (fun hc => hc h1)]
    refine Res.All.bind' fun al ha => ?_
    obtain ⟨as, l2⟩ := al
    obtain ⟨b, hb, hc⟩ := rdAcros_some (rdOk_some ha)
    simp only
    by_cases h2 : (rdStrE l2).1 = markAcro
    · rw [if_neg (fun hc => hc h2)]
      exact ⟨⟨rfl, rfl, rfl, rfl, rfl, rfl⟩, hp, Sect.ok1 rfl (by decide) (by decide) h1 hb hc h2, rfl⟩
    · rw [if_pos h2]
      refine ⟨⟨rfl, rfl, rfl, rfl, rfl, rfl⟩, hp, ?_⟩
      show Sect.Fail _ (Gx.raise _ _).lastErr _
      rw [raise_lastErr (by exact he)]
      exact Sect.fail2 rfl (by decide) (by decide) (by decide) h1 hb hc h2
  · rw [if_pos h1]
    refine ⟨raise_steady _ _, hp, ?_⟩
    show Sect.Fail _ (Gx.raise _ _).lastErr _
    rw [raise_lastErr he]
    exact Sect.fail1 (s := acroSect) (by decide) h1

theorem openDoms_spec {z : Cz} {ix : Index} {g : Gx} (he : g.lastErr = 0) :
    (openDoms z ix g).All fun r => Steady g r.1 ∧ 0 ≤ ix.doms ∧ TabRes domsSect (z.rd g.uncompr (g.file.drop ix.doms.toNat)) g r := by
  unfold openDoms
  refine Res.All.bind' fun l hl => ?_
  obtain ⟨hp, rfl⟩ := from_ok hl
  generalize z.rd g.uncompr (g.file.drop ix.doms.toNat) = l
  simp only
  by_cases h1 : (rdStrE l).1 = markDoms
  · have e1 := rdStrE_mark (by decide) (by decide) h1
    rw [if_neg (fun hc => hc h1)]
    refine Res.All.bind' fun nl hn => ?_
    refine Res.All.bind' fun sl hs => ?_
    obtain ⟨n, l1⟩ := nl
    obtain ⟨strs, l2⟩ := sl
    obtain ⟨b, hb, hc⟩ := counted_some0 (fun l a r h => rdCStr_some h) (rdOk_some hn) (rdOk_some hs)
    simp only
    by_cases h2 : (rdStrE l2).1 = markDoms
    · have e2 := rdStrE_mark (by decide) (by decide) h2
      rw [if_neg (fun hc => hc h2)]
      refine Res.All.bind' fun syms _ => ?_
      refine Res.All.bind' fun sl2 hs2 => ?_
      obtain ⟨b2, hb2, hc2⟩ := rdRelaxed_ok _ _ _ _ hs2
      by_cases h3 : (rdStrE sl2.2).1 = markDoms
      · have e3 := rdStrE_mark (by decide) (by decide) h3
        rw [if_neg (fun hc => hc h3)]
        refine ⟨⟨rfl, rfl, rfl, rfl, rfl, rfl⟩, hp, ⟨_, e1, b, (rdStrE l2).2, ?_, hc, b2, (rdStrE sl2.2).2, ?_, hc2, trivial⟩, rfl⟩
        · exact hb.trans (congrArg (b ++ ·) e2)
        · exact hb2.trans (congrArg (b2 ++ ·) e3)
      · rw [if_pos h3]
        refine ⟨⟨rfl, rfl, rfl, rfl, rfl, rfl⟩, hp, ?_⟩
        show Sect.Fail _ (Gx.raise _ _).lastErr _
        rw [raise_lastErr (by exact he)]
        refine .inr ⟨_, e1, .inr ⟨b, (rdStrE l2).2, ?_, hc, .inl ⟨b2, sl2.2, hb2, hc2, rdStrE_nomark (by decide) h3, rfl⟩⟩⟩
        exact hb.trans (congrArg (b ++ ·) e2)
    · rw [if_pos h2]
      refine ⟨⟨rfl, rfl, rfl, rfl, rfl, rfl⟩, hp, ?_⟩
      show Sect.Fail _ (Gx.raise _ _).lastErr _
      rw [raise_lastErr (by exact he)]
      exact .inr ⟨_, e1, .inl ⟨b, l2, hb, hc, rdStrE_nomark (by decide) h2, rfl⟩⟩
  · rw [if_pos h1]
    refine ⟨raise_steady _ _, hp, ?_⟩
    show Sect.Fail _ (Gx.raise _ _).lastErr _
    rw [raise_lastErr he]
    exact Sect.fail1 (s := domsSect) (by decide) h1

/-! ### the header -/

theorem openHeader_spec {g : Gx} {l f : List UInt8} (he : g.lastErr = 0) (hf : f = orderMarks ++ l) (dec : Bool → Bytes → Bytes) (t : Bool) :
    (openHeader g l).All fun r => r.1.mode = g.mode ∧ r.1.stat = g.stat ∧ r.1.file = g.file ∧
      match r.2 with
      | none => Refused dec f t r.1.lastErr
      | some ix => r.1.lastErr = 0 ∧ r.1.verRead ≤ 7 ∧
        ∃ c ps, Header f r.1.verRead c r.1.fsId ps ∧ r.1.uncompr = decide (c > 0) ∧ ix.symb = ps.symb ∧ ix.uels = ps.uels ∧
          ix.text = ps.text ∧ (r.1.verRead = 7 → ix.acro = ps.acro ∧ ix.doms = ps.doms) := by
  unfold openHeader
  refine Res.All.bind' fun bl hb => ?_
  obtain ⟨b, l1⟩ := bl
  have e1 := rdByte_some (rdOk_some hb)
  subst e1
  simp only
  by_cases hb : b = 123
  swap
  · rw [if_pos hb]
    refine ⟨rfl, rfl, rfl, ?_⟩
    show Refused _ _ _ (Gx.raise _ _).lastErr
    rw [raise_lastErr he]
    exact .header b l1 hf hb rfl
  subst hb
  rw [if_neg (fun hc => hc rfl)]
  cases hs : sameText false (rdStrE l1).1 headerId with
  | false =>
    rw [if_pos rfl]
    refine ⟨rfl, rfl, rfl, ?_⟩
    show Refused _ _ _ (Gx.raise _ _).lastErr
    rw [raise_lastErr he]
    exact .product l1 hf (product_no hs) rfl
  | true =>
    rw [if_neg (by simp)]
    obtain ⟨h, hh, e2⟩ := product_yes hs
    generalize (rdStrE l1).2 = l2 at e2 ⊢
    have hu1 : Upto1 f l2 := ⟨h, hh, by rw [hf, e2]⟩
    refine Res.All.bind' fun vl hv => ?_
    obtain ⟨v, l3⟩ := vl
    obtain ⟨bv, rfl, hvi⟩ := rdInt_some (rdOk_some hv)
    have hu2 : Upto2 f v l3 := ⟨bv, hu1, hvi⟩
    simp only
    by_cases hv7 : v > 7
    · rw [if_pos hv7]
      refine ⟨rfl, rfl, rfl, ?_⟩
      show Refused _ _ _ (Gx.raise _ _).lastErr
      rw [raise_lastErr (by exact he)]
      exact .version v l3 hu2 hv7 rfl
    · rw [if_neg hv7]
      refine Res.All.bind' fun cl hcl => ?_
      obtain ⟨c, l4⟩ := cl
      obtain ⟨bc, hbc, hci⟩ : ∃ b, l3 = b ++ l4 ∧ (if v ≤ 5 then b = [] ∧ c = 0 else IsInt 4 b c) := by
        unfold rdCompr at hcl
        by_cases h5 : v ≤ 5
        · rw [if_pos h5] at hcl
          cases hcl
          exact ⟨[], rfl, by rw [if_pos h5]; exact ⟨rfl, rfl⟩⟩
        · rw [if_neg h5] at hcl
          obtain ⟨b, h1, h2⟩ := rdInt_some (rdOk_some hcl)
          exact ⟨b, h1, by rw [if_neg h5]; exact h2⟩
      refine Res.All.bind' fun ml hml => ?_
      obtain ⟨m, l7⟩ := ml
      obtain ⟨bm, hbm, hmi⟩ := rdInt_some (rdOk_some hml)
      have hne : (rdStrE (rdStrE l4).2).2 ≠ [] := by
        intro hc
        rw [hbm] at hc
        have := congrArg List.length hc
        simp [hmi.1] at this
      obtain ⟨np, ep, hp⟩ := rdStrE_full hne
      have hne2 : (rdStrE l4).2 ≠ [] := by
        intro hc
        rw [hc] at hne
        exact hne rfl
      obtain ⟨nf, ef, hfs⟩ := rdStrE_full hne2
      have hu3 : Upto3 f v c (rdStrE l4).1 (bm ++ l7) := by
        refine ⟨bc, nf :: (rdStrE l4).1, nf, np :: (rdStrE (rdStrE l4).2).1, ?_, by omega, hci, rfl, hfs, ⟨np, _, rfl, hp⟩⟩
        rw [← hbm, ← ep, ← ef, ← hbc]
        exact hu2
      simp only
      by_cases hmb : m = markBoi
      swap
      · rw [if_pos hmb]
        refine ⟨rfl, rfl, rfl, ?_⟩
        show Refused _ _ _ (Gx.raise _ _).lastErr
        rw [raise_lastErr (by exact he)]
        exact .index v c _ bm l7 m hu3 hmi hmb rfl
      · rw [if_neg (fun hc => hc hmb)]
        subst hmb
        refine Res.All.bind' fun il hil => ?_
        obtain ⟨ix, l8⟩ := il
        have hix := rdOk_some hil
        refine ⟨rfl, rfl, rfl, he, by show v ≤ 7; omega, ?_⟩
        show ∃ c' ps, Header f v c' (rdStrE l4).1 ps ∧ decide (c > 0) = decide (c' > 0) ∧ _
        refine ⟨c, ⟨ix.symb, ix.uels, ix.text, ix.acro, ix.doms⟩, ⟨bm, l7, hu3, hmi, ?_⟩, rfl, rfl, rfl, rfl, fun _ => ⟨rfl, rfl⟩⟩
        unfold PlacesAre
        unfold rdIndex at hix
        by_cases h5 : v ≤ 5
        · rw [if_pos h5] at hix ⊢
          obtain ⟨⟨a, l9⟩, h1, hix⟩ := Option.bind_eq_some_iff.mp hix
          obtain ⟨⟨b, l10⟩, h2, hix⟩ := Option.bind_eq_some_iff.mp hix
          obtain ⟨⟨c, l11⟩, h3, hix⟩ := Option.bind_eq_some_iff.mp hix
          obtain ⟨⟨d, l12⟩, h4, hix⟩ := Option.bind_eq_some_iff.mp hix
          cases hix
          obtain ⟨x1, rfl, y1⟩ := rdInt_some h1
          obtain ⟨x2, rfl, y2⟩ := rdInt_some h2
          obtain ⟨x3, rfl, y3⟩ := rdInt_some h3
          exact ⟨x1, x2, x3, l11, rfl, y1, y2, y3⟩
        · rw [if_neg h5] at hix ⊢
          obtain ⟨⟨a, l9⟩, h1, hix1⟩ := Option.bind_eq_some_iff.mp hix
          obtain ⟨⟨b, l10⟩, h2, hix2⟩ := Option.bind_eq_some_iff.mp hix1
          obtain ⟨⟨c, l11⟩, h3, hix3⟩ := Option.bind_eq_some_iff.mp hix2
          clear hix hix1 hix2 hil
          obtain ⟨x1, rfl, y1⟩ := rdInt64_some h1
          obtain ⟨x2, rfl, y2⟩ := rdInt64_some h2
          obtain ⟨x3, rfl, y3⟩ := rdInt64_some h3
          simp only at hix3
          by_cases h7 : v ≥ 7
          · rw [if_pos h7] at hix3
            obtain ⟨⟨d, l12⟩, h4, hix⟩ := Option.bind_eq_some_iff.mp hix3
            obtain ⟨⟨e, l13⟩, h5, hix⟩ := Option.bind_eq_some_iff.mp hix
            obtain ⟨⟨k, l14⟩, h6, hix⟩ := Option.bind_eq_some_iff.mp hix
            cases hix
            obtain ⟨x4, rfl, y4⟩ := rdInt64_some h4
            obtain ⟨x5, rfl, y5⟩ := rdInt64_some h5
            obtain ⟨x6, rfl, y6⟩ := rdInt64_some h6
            exact ⟨x1, x2, x3, _, rfl, y1, y2, y3, fun _ => ⟨x4, x5, x6, _, rfl, y4, y5.1, y6⟩⟩
          · rw [if_neg h7] at hix3
            cases hix3
            exact ⟨x1, x2, x3, _, rfl, y1, y2, y3, fun hc => absurd (by omega) h7⟩

/-! ### all tables -/

/-- outcome of a list of tables -/
def TabsRes (dec : Bytes → Bytes) (f : Bytes) (ss : List (Sect × Int)) (r : Gx × Bool) : Prop :=
  if r.2 = true then (∀ s ∈ ss, 0 ≤ s.2 ∧ s.1.Ok (dec (f.drop s.2.toNat))) ∧ r.1.lastErr = 0
  else ∃ a b s, ss = a ++ s :: b ∧ (∀ s ∈ a, 0 ≤ s.2 ∧ s.1.Ok (dec (f.drop s.2.toNat))) ∧ 0 ≤ s.2 ∧ s.1.Fail r.1.lastErr (dec (f.drop s.2.toNat))

/-- what is known about the result of a sequence of tables, started in `g` -/
def Tabs (z : Cz) (g : Gx) (ss : List (Sect × Int)) (r : Gx × Bool) : Prop :=
  Steady g r.1 ∧ TabsRes (z.rd g.uncompr) g.file ss r

theorem Tabs.nil {z : Cz} {g : Gx} (h : g.lastErr = 0) : Tabs z g [] (g, true) :=
  ⟨Steady.refl g, by unfold TabsRes; rw [if_pos rfl]; exact ⟨by simp, h⟩⟩

theorem Tabs.cons {z : Cz} {g : Gx} {s : Sect} {p : Int} {ss : List (Sect × Int)} {r : Res (Gx × Bool)} {k : Gx → Res (Gx × Bool)}
    (he : g.lastErr = 0)
    (hr : r.All fun r => Steady g r.1 ∧ 0 ≤ p ∧ TabRes s (z.rd g.uncompr (g.file.drop p.toNat)) g r)
    (hk : ∀ g', Steady g g' → g'.lastErr = 0 → (k g').All (Tabs z g' ss)) : (thenOk r k).All (Tabs z g ((s, p) :: ss)) := by
  unfold thenOk
  refine Res.All.bind hr fun x hx => ?_
  obtain ⟨g', ok⟩ := x
  obtain ⟨hs, hp, ht⟩ := hx
  cases ok with
  | true =>
    unfold TabRes at ht
    simp only [if_true] at ht ⊢
    refine (hk g' hs (ht.2.trans he)).mono fun y hy => ⟨hs.trans hy.1, ?_⟩
    have hy2 := hy.2
    simp only at hs
    rw [hs.uncompr, hs.file] at hy2
    unfold TabsRes at hy2 ⊢
    cases hy3 : y.2 with
    | true =>
      rw [hy3, if_pos rfl] at hy2
      rw [if_pos rfl]
      refine ⟨fun t htm => ?_, hy2.2⟩
      rcases List.mem_cons.mp htm with rfl | htm
      · exact ⟨hp, ht.1⟩
      · exact hy2.1 t htm
    | false =>
      rw [hy3, if_neg (by simp)] at hy2
      rw [if_neg (by simp)]
      obtain ⟨a, b, t, h1, h2, h3, h4⟩ := hy2
      refine ⟨(s, p) :: a, b, t, by rw [h1]; rfl, fun t htm => ?_, h3, h4⟩
      rcases List.mem_cons.mp htm with rfl | htm
      · exact ⟨hp, ht.1⟩
      · exact h2 t htm
  | false =>
    unfold TabRes at ht
    rw [if_neg (by simp)] at ht
    refine ⟨hs, ?_⟩
    unfold TabsRes
    rw [if_neg (by simp)]
    exact ⟨[], ss, (s, p), rfl, by simp, hp, ht⟩

theorem Tabs.skip {z : Cz} {g : Gx} {ss : List (Sect × Int)} {k : Gx → Res (Gx × Bool)} (h : (k g).All (Tabs z g ss)) :
    (thenOk (.ok (g, true)) k).All (Tabs z g ss) := h

theorem openTables_spec {z : Cz} {ix : Index} {rm : Int} {g : Gx} (ps : Places) (he : g.lastErr = 0) (hv : g.verRead ≤ 7)
    (h1 : ix.symb = ps.symb) (h2 : ix.uels = ps.uels) (h3 : ix.text = ps.text) (h4 : g.verRead = 7 → ix.acro = ps.acro ∧ ix.doms = ps.doms) :
    (openTables z ix rm g).All (Tabs z g (sects g.verRead g.fsId ps (decide (rm % 2 = 0)))) := by
  unfold openTables sects
  simp only [List.cons_append, List.nil_append]
  refine Tabs.cons he (by rw [← h1]; exact openSyms_spec he hv) fun ga sa ea => ?_
  rw [← sa.fs, ← sa.ver]
  refine Tabs.cons ea (by rw [← h2]; exact openUels_spec ea) fun gb sb eb => ?_
  have vb : gb.verRead = g.verRead := sb.ver.trans sa.ver
  rw [← sb.ver]
  have hlast : ∀ g', g'.lastErr = 0 → g'.verRead = g.verRead → (thenOk (if g'.verRead ≥ 7 then openAcros z ix g' else .ok (g', true)) fun g =>
      let g := { g with domStrs := some [] }
      if g.verRead ≥ 7 ∧ ix.doms ≠ 0 then openDoms z ix g else .ok (g, true)).All
        (Tabs z g' ((if g'.verRead = 7 then [(acroSect, ps.acro)] else []) ++ (if g'.verRead = 7 ∧ ps.doms ≠ 0 then [(domsSect, ps.doms)] else []))) := by
    intro g' e' v'
    by_cases h7 : g'.verRead = 7
    · obtain ⟨h5, h6⟩ := h4 (by rw [← v', h7])
      rw [if_pos (show g'.verRead ≥ 7 by omega), if_pos h7]
      refine Tabs.cons e' (by rw [← h5]; exact openAcros_spec e') fun gd sd ed => ?_
      have vd : gd.verRead = 7 := sd.ver.trans h7
      simp only
      have key : ∀ x : Gx, (fun g => Steady gd g) x → x.lastErr = 0 → x.verRead = 7 →
          (if x.verRead ≥ 7 ∧ ix.doms ≠ 0 then openDoms z ix x else .ok (x, true)).All (Tabs z gd (if g'.verRead = 7 ∧ ps.doms ≠ 0 then [(domsSect, ps.doms)] else [])) := by
        intro x sx ex vx
        by_cases hd : ps.doms = 0
        · rw [if_neg (fun hc => hc.2 hd), if_neg (fun hc => hc.2 (h6.trans hd))]
          have := (Tabs.nil (z := z) ex).2
          rw [sx.uncompr, sx.file] at this
          exact ⟨sx, this⟩
        · rw [if_pos (⟨h7, hd⟩ : g'.verRead = 7 ∧ ps.doms ≠ 0), if_pos (⟨by omega, by rw [h6]; exact hd⟩ : x.verRead ≥ 7 ∧ ix.doms ≠ 0)]
          have := Tabs.cons (z := z) (ss := []) (s := domsSect) (p := ps.doms) (k := fun g => .ok (g, true)) ex (by rw [← h6]; exact openDoms_spec ex)
            (fun g' _ e => Tabs.nil e)
          have e : thenOk (openDoms z ix x) (fun g => .ok (g, true)) = openDoms z ix x := by
            unfold thenOk
            cases openDoms z ix x with
            | ub => rfl
            | ok y => obtain ⟨y1, y2⟩ := y; cases y2 <;> rfl
          rw [e] at this
          refine this.mono fun y hy => ⟨sx.trans hy.1, ?_⟩
          have := hy.2
          rw [sx.uncompr, sx.file] at this
          exact this
      exact key { gd with domStrs := some [] } ⟨rfl, rfl, rfl, rfl, rfl, rfl⟩ ed vd
    · rw [if_neg (show ¬ g'.verRead ≥ 7 by omega), if_neg h7, if_neg (fun hc => h7 hc.1)]
      show (if _ then _ else _ : Res (Gx × Bool)).All _
      rw [if_neg (fun hc => by have := hc.1; simp only at this; omega)]
      exact ⟨⟨rfl, rfl, rfl, rfl, rfl, rfl⟩, (Tabs.nil (z := z) (g := { g' with domStrs := some [] }) e').2⟩
  by_cases hr : rm % 2 = 0
  · rw [if_pos hr, decide_eq_true hr]
    simp only [if_true, List.cons_append, List.nil_append]
    refine Tabs.cons eb (by rw [← h3]; exact openTexts_spec eb) fun gc sc ec => ?_
    rw [← sc.ver]
    exact hlast gc ec (sc.ver.trans vb)
  · rw [if_neg hr, decide_eq_false hr]
    exact Tabs.skip (hlast gb eb vb)

/-! ### gdxOpenRead -/

theorem order_native : orderHeader false = orderMarks := by decide
theorem order_other : orderHeader true = orderMarksBig := by decide

theorem initOrder_zero {n pat : Nat} (hn : n < 256) (hp : pat < 256 ^ n) (hr : memVal false (memBytes true n pat) ≠ pat) {l r : List UInt8}
    (h : initOrder false n pat l = some (0, r)) : l = UInt8.ofNat n :: memBytes false n pat ++ r := by
  obtain ⟨b, hb⟩ := initOrder_ok false n pat hn l r 0 h (by decide) (by decide) hp
  cases b with
  | false => exact hb
  | true =>
    rw [hb, initOrder_header true false n pat hn hp hr] at h
    cases h

theorem order_exact {f l : List UInt8} (h : determineByteOrder false f = some (⟨0, 0, 0⟩, l)) : f = orderMarks ++ l := by
  unfold determineByteOrder at h
  obtain ⟨⟨w, l1⟩, h1, h⟩ := Option.bind_eq_some_iff.mp h
  obtain ⟨⟨i, l2⟩, h2, h⟩ := Option.bind_eq_some_iff.mp h
  obtain ⟨⟨d, l3⟩, h3, h⟩ := Option.bind_eq_some_iff.mp h
  cases h
  rw [initOrder_zero (by decide) (by decide) (by decide) h1, initOrder_zero (by decide) (by decide) (by decide) h2,
    initOrder_zero (by decide) (by decide) (by decide) h3, ← order_native]
  simp [orderHeader]

/-- C41. `rm`: even = with the texts (gdxOpenRead has 0). Files of a machine with the other byte order are outside of the model. -/
theorem C41_opening (z : Cz) (g : Gx) (f : List UInt8) (rm : Int) (hm : g.mode = .notOpen) :
    (openReadXX z g (.content f) rm).All fun r =>
      if r.2.1 = true then Accepted z.rd f (decide (rm % 2 = 0)) ∧ r.2.2 = 0 ∧ r.1.mode = .rInit ∧ r.1.stat = .read
      else Refused z.rd f (decide (rm % 2 = 0)) r.2.2 ∧ r.1.lastErr = r.2.2 ∧ r.1.opened = false ∧ r.1.mode = .notOpen ∧ r.1.stat = g.stat := by
  unfold openReadXX
  rw [if_neg (fun hc => hc hm)]
  simp only
  refine Res.All.bind' fun ol hol => ?_
  obtain ⟨o, l⟩ := ol
  have ho := rdOk_some hol
  simp only
  by_cases hg : goodByteOrder o = 0
  swap
  · rw [if_pos hg]
    refine ⟨.order ?_ ?_ rfl, rfl, rfl, hm, rfl⟩
    · rintro ⟨t, rfl⟩
      obtain ⟨o', h1, h2, _⟩ := C21_header false false t
      rw [← order_native, h1] at ho
      cases ho
      exact hg h2
    · rintro ⟨t, rfl⟩
      obtain ⟨o', h1, h2, _⟩ := C21_header true false t
      rw [← order_other, h1] at ho
      cases ho
      exact hg h2
  · rw [if_neg (fun hc => hc hg)]
    by_cases h0 : o = ⟨0, 0, 0⟩
    swap
    · rw [if_pos h0]; trivial
    rw [if_neg (fun hc => hc h0)]
    have hf : f = orderMarks ++ l := by
      subst h0
      exact order_exact ho
    refine Res.All.bind (openHeader_spec (f := f) (by rfl) hf z.rd (decide (rm % 2 = 0))) fun x hx => ?_
    obtain ⟨g1, oi⟩ := x
    obtain ⟨x1, x2, x3, x4⟩ := hx
    cases oi with
    | none => exact ⟨x4, rfl, rfl, x1.trans hm, x2⟩
    | some ix =>
      obtain ⟨y1, y2, c, ps, y3, y4, y5, y6, y7, y8⟩ := x4
      simp only at x1 x2 x3 y1 y2 y3 y4 y8
      refine Res.All.bind (openTables_spec (rm := rm) ps y1 y2 y5 y6 y7 y8) fun w hw => ?_
      obtain ⟨g2, ok⟩ := w
      obtain ⟨w1, w2⟩ := hw
      rw [y4, x3] at w2
      unfold TabsRes at w2
      cases ok with
      | true =>
        simp only [if_true] at w2
        exact ⟨⟨_, c, _, ps, y3, w2.1⟩, rfl, rfl, rfl⟩
      | false =>
        rw [if_neg (by simp)] at w2
        obtain ⟨a, b, s, u1, u2, u3, u4⟩ := w2
        exact ⟨.table _ c _ ps y3 a b s u1 u2 u3 u4, rfl, rfl, w1.mode.trans (x1.trans hm), w1.stat.trans x2⟩

/-- C41: nothing to open: no name, or the operating system refuses -/
theorem C41_nofile (z : Cz) (g : Gx) (rm e : Int) (hm : g.mode = .notOpen) :
    (∃ g', openReadXX z g .noName rm = .ok (g', (false, -100000)) ∧ g'.lastErr = -100000 ∧ g'.opened = false ∧ g'.mode = .notOpen) ∧
    (∃ g', openReadXX z g (.ioErr e) rm = .ok (g', (false, e)) ∧ g'.lastErr = e ∧ g'.opened = false ∧ g'.mode = .notOpen) := by
  unfold openReadXX
  rw [if_neg (fun hc => hc hm), if_neg (fun hc => hc hm)]
  exact ⟨⟨_, rfl, rfl, rfl, hm⟩, ⟨_, rfl, rfl, rfl, hm⟩⟩

/-- C41: an object that is in use refuses and keeps its file -/
theorem C41_busy (z : Cz) (g : Gx) (d : Disk) (rm : Int) (hm : g.mode ≠ .notOpen) :
    openReadXX z g d rm = .ok (g, (false, -100059)) := by
  unfold openReadXX
  rw [if_pos hm]
  rfl

/-- a file with a symbol, opened as it is and with one byte changed: position and expected result -/
def exOpenCalls : List Call :=
  [.openWrite false 0 [65] 0, .uelRawStart, .uelRaw [97], .uelDone, .addSetText [116], .strStart [105] [] 1 0 0, .writeStr [[97]] [0],
    .writeDone, .close]

example : after exOpenCalls (fun g => do
    let r ← openRead Cz.id Gx.new (.content g.file)
    let r1 ← openRead Cz.id Gx.new (.content (g.file.set 1 0))
    let r2 ← openRead Cz.id Gx.new (.content (g.file.set 17 0))
    let r3 ← openRead Cz.id Gx.new (.content (g.file.set 19 0))
    let r4 ← openRead Cz.id Gx.new (.content (g.file.set 26 8))
    let r5 ← openRead Cz.id Gx.new (.content (g.file.set g.majorPos 0))
    let r6 ← openRead Cz.id Gx.new (.content (g.file.set g.nextWrite.toNat 0))
    pure ([r, r1, r2, r3, r4, r5, r6].map Prod.snd)) =
    .ok [(true, 0), (false, -100041), (false, -100032), (false, -100034), (false, -100033), (false, -100031), (false, -100035)] := by
  decide +kernel

#print axioms C41_opening

end Gdx.Props
