import Verif.Proofs.MapScan
import Verif.Proofs.YieldsAs
import Verif.Proofs.RadixSort

/-! The loops of the mapped readers over the records. -/

namespace Gdx
open Gdx.Spec

/-! ### what DoRead does not look at -/

/-- the part of the state that the mapped readers change and DoRead does not use -/
structure Side where
  uel : Option Uel
  sort : Option (LData (List Dbl))
  errList : Option (List (List Int × List Dbl))
  nrMapped : Int
  prev : List Int

def Gx.side (g : Gx) (w : Side) : Gx :=
  { g with uel := w.uel, sort := w.sort, errList := w.errList, nrMapped := w.nrMapped, prev := w.prev }

def Gx.sides (g : Gx) : Side := ⟨g.uel, g.sort, g.errList, g.nrMapped, g.prev⟩

theorem Gx.side_sides (g : Gx) : g.side g.sides = g := rfl

theorem remapIndex_side (g : Gx) (w : Side) (n : Int) :
    remapIndex (g.side w) n = (remapIndex g n >>= fun x => .ok (x.1.side w, x.2)) := by
  unfold remapIndex Gx.side
  dsimp only
  generalize need g.acros = r
  cases r with
  | ub => rfl
  | ok a =>
    simp only [Res.bind_ok]
    cases acrFind a n with
    | none =>
      simp only
      split
      · rfl
      split <;> rfl
    | some k =>
      simp only
      cases at0 a k with
      | ub => rfl
      | ok x =>
        simp only [Res.bind_ok]
        split
        · rfl
        split
        · rfl
        split <;> rfl

theorem readVal_side (g : Gx) (w : Side) (v : SVal) :
    readVal (g.side w) v = (readVal g v >>= fun x => .ok (x.1.side w, x.2)) := by
  cases v with
  | code c => rfl
  | num d =>
    unfold readVal
    simp only
    split
    · unfold acronymRemap
      split
      · rfl
      show (if g.acrNaN = true then _ else _) = (if g.acrNaN = true then _ else _) >>= _
      split
      · rfl
      cases acrDiv d with
      | ub => rfl
      | ok n =>
        simp only [Res.bind_ok]
        rw [remapIndex_side]
        cases remapIndex g n <;> rfl
    · rfl

theorem readVals_side : ∀ (vs : List SVal) (g : Gx) (w : Side),
    readVals (g.side w) vs = (readVals g vs >>= fun x => .ok (x.1.side w, x.2))
  | [], _, _ => rfl
  | v :: vs, g, w => by
    unfold readVals
    rw [readVal_side]
    cases readVal g v with
    | ub => rfl
    | ok x =>
      simp only [Res.bind_ok]
      rw [readVals_side vs x.1 w]
      cases readVals x.1 vs <;> rfl

theorem doRead_side (g : Gx) (w : Side) : doRead (g.side w) = (doRead g >>= fun x => .ok (x.1.side w, x.2)) := by
  unfold doRead
  show (if g.rdUniverse = true then _ else _) = (if g.rdUniverse = true then _ else _) >>= _
  split
  · show (if g.universeNr ≥ intMax then _ else _) = (if g.universeNr ≥ intMax then _ else _) >>= _
    split
    · rfl
    show (if g.universeNr + 1 ≤ g.uelOrig then _ else _) = (if g.universeNr + 1 ≤ g.uelOrig then _ else _) >>= _
    split <;> rfl
  · show (g.curSym >>= _) = (g.curSym >>= _) >>= _
    cases g.curSym with
    | ub => rfl
    | ok s =>
      simp only [Res.bind_ok]
      show (if g.scalarFrst = true then _ else _) = (if g.scalarFrst = true then _ else _) >>= _
      split
      · rfl
      show (rdOk (decRec g.nd g.deltaRead g.dataSize (g.bounds.map posDesc) g.last) g.rest >>= _) =
        (rdOk (decRec g.nd g.deltaRead g.dataSize (g.bounds.map posDesc) g.last) g.rest >>= _) >>= _
      cases rdOk (decRec g.nd g.deltaRead g.dataSize (g.bounds.map posDesc) g.last) g.rest with
      | ub => rfl
      | ok x =>
        obtain ⟨o, r⟩ := x
        simp only [Res.bind_ok]
        cases o with
        | none => rfl
        | some y =>
          simp only
          have := readVals_side y.2.vals { g with rest := r } w
          have e : ({ g.side w with rest := r } : Gx) = ({ g with rest := r } : Gx).side w := rfl
          rw [e, this]
          cases readVals { g with rest := r } y.2.vals with
          | ub => rfl
          | ok v =>
            simp only [Res.bind_ok]
            show (remapTexts v.1 s v.2 >>= _) = (remapTexts v.1 s v.2 >>= _) >>= _
            cases remapTexts v.1 s v.2 <;> rfl

theorem doRead_side_ok {g g' : Gx} {o : Option (Nat × List Dbl)} (h : doRead g = .ok (g', o)) (w : Side) :
    doRead (g.side w) = .ok (g'.side w, o) := by
  rw [doRead_side, h]
  rfl

theorem addErrDom_side (g : Gx) (w : Side) (key : List Int) (vals : List Dbl) :
    ∃ l, addErrDom (g.side w) key vals = g.side { w with errList := l } := by
  unfold addErrDom
  dsimp only
  split
  · exact ⟨w.errList, rfl⟩
  split <;> exact ⟨_, rfl⟩

/-- DoRead delivers exactly these records and then "no more" -/
inductive Feeds : Gx → List (RecOut Int) → Gx → Prop
  | done {g g' : Gx} (h : doRead g = .ok (g', none)) : Feeds g [] g'
  | next {g g1 g' : Gx} {r : RecOut Int} {rs : List (RecOut Int)} (h : doRead g = .ok (g1, some (r.frst, r.vals))) (hl : g1.last = r.key)
      (hr : Feeds g1 rs g') : Feeds g (r :: rs) g'

theorem Feeds.step {g g' : Gx} {outs : List (RecOut Int)} (h : Feeds g outs g') : RdStep g g' := by
  induction h with
  | done h => exact ((doRead_step _).of_ok h).1
  | next h _ _ ih => exact ((doRead_step _).of_ok h).1.trans ih

theorem Feeds.len {g g' : Gx} {outs : List (RecOut Int)} (h : Feeds g outs g') : outs.length ≤ g.left := by
  induction h with
  | done h => exact Nat.zero_le _
  | next h _ _ ih =>
    have := ((doRead_step _).of_ok h).2 (by simp)
    simp only at this
    simp only [List.length_cons]
    omega

theorem At.feeds {m : Nat} {s : Sym} : ∀ (rs : List Rec) {g : Gx} {p : Option (List Int)}, At g m s p rs →
    ∃ x l, Feeds g (rawOuts g.loads g.nd p rs) { g with rest := x, last := l }
  | [], g, p, h => by
    obtain ⟨x, hx⟩ := h.done
    exact ⟨x, g.last, .done hx⟩
  | r :: rs, g, p, h => by
    obtain ⟨x, hx, h1, h2⟩ := h.next
    obtain ⟨y, l, hy⟩ := At.feeds rs h1
    exact ⟨y, l, Feeds.next hx rfl hy⟩

theorem AtUniverse.feeds : ∀ (k n : Nat) {g : Gx}, AtUniverse g n k → ∃ g', Feeds g (universeOuts n k) g' ∧ RdSame g g'
  | 0, n, g, h => by
    have h1 := h.orig
    have h2 := h.nr
    have h3 := h.lt
    refine ⟨{ g with universeNr := g.universeNr + 1 }, .done ?_,
      ⟨rfl, rfl, rfl, rfl, rfl, rfl, rfl, rfl, rfl, rfl, rfl, rfl, rfl, rfl, rfl, rfl, rfl, rfl, rfl⟩⟩
    unfold doRead
    rw [if_pos h.uni, if_neg (by omega), if_neg (by omega)]
    rfl
  | k + 1, n, g, h => by
    have h1 := h.orig
    have h2 := h.nr
    have h3 := h.lt
    have hd := h.dim
    have hn : AtUniverse { g with universeNr := g.universeNr + 1, last := [g.universeNr + 1] } (n + 1) k :=
      ⟨h.uni, by show g.universeNr + 1 = _; push_cast; omega, by show g.uelOrig = _; rw [h1]; push_cast; omega, h.lt, h.dim, h.nrm⟩
    obtain ⟨g', e1, e2⟩ := AtUniverse.feeds k (n + 1) hn
    have hr : doRead g = .ok ({ g with universeNr := g.universeNr + 1, last := [g.universeNr + 1] }, some (1, [Dbl.zero])) := by
      unfold doRead
      rw [if_pos h.uni, if_neg (by omega), if_pos (by omega)]
      rfl
    refine ⟨g', ?_, (RdSame.mk rfl rfl rfl rfl rfl rfl rfl rfl rfl rfl rfl rfl rfl rfl rfl rfl ⟨rfl, rfl, rfl⟩ : RdSame g { g with universeNr := g.universeNr + 1, last := [g.universeNr + 1] }).trans e2⟩
    exact Feeds.next hr (by show [g.universeNr + 1] = [(n : Int) + 1]; rw [h2]) e1

/-! ### the records -/

/-- DimFrst of a record, `p` = the key before -/
def FrstOk (nd : Nat) (p : Option (List Int)) (r : RecOut Int) : Prop :=
  (1 ≤ r.frst ∨ nd = 0) ∧ r.frst ≤ nd ∧ (p = none → r.frst ≤ 1) ∧ ∀ k, p = some k → k.take (r.frst - 1) = r.key.take (r.frst - 1)

def FrstsOk (nd : Nat) : Option (List Int) → List (RecOut Int) → Prop
  | _, [] => True
  | p, r :: rs => FrstOk nd p r ∧ FrstsOk nd (some r.key) rs

def RecsOk (n : Int) (nd ds : Nat) (outs : List (RecOut Int)) : Prop :=
  ∀ r ∈ outs, r.key.length = nd ∧ (∀ e ∈ r.key, 1 ≤ e ∧ e ≤ n) ∧ r.vals.length = ds

/-- The key array `els` agrees with the key `p` translated, in the positions before `fi`. -/
structure KeyAt (us : Users) (acts : List Act) (p : Option (List Int)) (els : List Int) (fi : Nat) (new : Bool) : Prop where
  len : els.length = acts.length
  fiOk : (1 ≤ fi ∨ acts = []) ∧ fi ≤ acts.length
  pre : ∀ k, p = some k → k.length = acts.length ∧ els.take (fi - 1) = (codes us acts k).take (fi - 1) ∧
    allAdmit us (acts.take (fi - 1)) (k.take (fi - 1)) = true ∧ (new = false → ∀ x ∈ els.take (fi - 1), 0 ≤ x)

theorem codes_take {us : Users} {acts : List Act} {k : List Int} (n : Nat) : (codes us acts k).take n = codes us (acts.take n) (k.take n) := by
  unfold codes
  rw [List.take_zipWith]

theorem codes_append {us : Users} {as bs : List Act} {es fs : List Int} (h : as.length = es.length) :
    codes us (as ++ bs) (es ++ fs) = codes us as es ++ codes us bs fs := by
  unfold codes
  rw [List.zipWith_append h]

theorem allAdmit_take {us : Users} : ∀ {as : List Act} {es : List Int} (n : Nat), allAdmit us as es = true → allAdmit us (as.take n) (es.take n) = true
  | [], es, n, _ => by simp [allAdmit]
  | _ :: _, [], n, _ => by simp [allAdmit]
  | a :: as, e :: es, 0, _ => by simp [allAdmit]
  | a :: as, e :: es, n + 1, h => by
    simp only [allAdmit, Bool.and_eq_true, List.take_succ_cons] at h ⊢
    exact ⟨h.1, allAdmit_take n h.2⟩

/-- one record: the positions from `d` on are translated -/
theorem KeyAt.scan {us : Users} {acts : List Act} {p : Option (List Int)} {els : List Int} {fi : Nat} {new : Bool}
    (h : KeyAt us acts p els fi new) {r : RecOut Int} (hr : FrstOk acts.length p r) (hk : r.key.length = acts.length) (h1 : ∀ e ∈ r.key, 1 ≤ e)
    (ha : ∀ a ∈ acts, ActOk a) {d : Nat} (hd : d = (if fi < r.frst then fi else r.frst) - 1) :
    (badAt us (acts.drop d) (r.key.drop d) = none → allAdmit us acts r.key = true ∧
      els.take d ++ scanOut us (acts.drop d) (r.key.drop d) (els.drop d) = codes us acts r.key ∧
      ((new || newIn us (acts.drop d) (r.key.drop d)) = false → ∀ x ∈ codes us acts r.key, 0 ≤ x)) ∧
    (∀ k, badAt us (acts.drop d) (r.key.drop d) = some k → allAdmit us acts r.key = false ∧
      KeyAt us acts (some r.key) (els.take d ++ scanOut us (acts.drop d) (r.key.drop d) (els.drop d)) (d + k + 1)
        (new || newIn us (acts.drop d) (r.key.drop d))) := by
  obtain ⟨hf1, hf2, hf3, hf4⟩ := hr
  have hlen := h.len
  have hfi := h.fiOk
  have hdle : d ≤ acts.length := by
    rw [hd]
    split <;> omega
  have hd1 : d ≤ r.frst - 1 := by
    rw [hd]
    split <;> omega
  have hd2 : d ≤ fi - 1 := by
    rw [hd]
    split <;> omega
  -- the positions before `d`
  have hpre : els.take d = codes us (acts.take d) (r.key.take d) ∧ allAdmit us (acts.take d) (r.key.take d) = true ∧
      (new = false → ∀ x ∈ els.take d, 0 ≤ x) := by
    cases p with
    | none =>
      have : d = 0 := by have := hf3 rfl; omega
      subst this
      simp [codes, allAdmit]
    | some k =>
      obtain ⟨q1, q2, q3, q4⟩ := h.pre k rfl
      have hkk : k.take d = r.key.take d := by
        have := congrArg (List.take d) (hf4 k rfl)
        rwa [List.take_take, List.take_take, Nat.min_eq_left hd1] at this
      refine ⟨?_, ?_, ?_⟩
      · have := congrArg (List.take d) q2
        rw [List.take_take, List.take_take, Nat.min_eq_left hd2, codes_take] at this
        rw [this, hkk]
      · have := allAdmit_take d q3
        rw [List.take_take, List.take_take, Nat.min_eq_left hd2] at this
        rw [← hkk]
        exact this
      · intro hn x hx
        refine q4 hn x ?_
        rw [← Nat.min_eq_left hd2, ← List.take_take] at hx
        exact List.mem_of_mem_take hx
  obtain ⟨p1, p2, p3⟩ := hpre
  have hl0 : (acts.take d).length = (r.key.take d).length := by simp [hk]
  have hl1 : (acts.drop d).length = (r.key.drop d).length := by simp [hk]
  have hl2 : (els.drop d).length = (r.key.drop d).length := by simp [hk, hlen]
  have hsplit : codes us acts r.key = codes us (acts.take d) (r.key.take d) ++ codes us (acts.drop d) (r.key.drop d) := by
    rw [← codes_append hl0, List.take_append_drop, List.take_append_drop]
  have hadm : allAdmit us acts r.key = allAdmit us (acts.drop d) (r.key.drop d) := by
    have := allAdmit_append (us := us) (bs := acts.drop d) (fs := r.key.drop d) hl0
    rw [List.take_append_drop, List.take_append_drop, p2, Bool.true_and] at this
    exact this
  have hA : ∀ a ∈ acts.drop d, ActOk a := fun a h => ha a (List.mem_of_mem_drop h)
  have hE : ∀ e ∈ r.key.drop d, 1 ≤ e := fun e h => h1 e (List.mem_of_mem_drop h)
  refine ⟨?_, ?_⟩
  · intro hb
    refine ⟨by rw [hadm]; exact badAt_none.mp hb, ?_, ?_⟩
    · rw [scanOut_none hb hl2 hl1, hsplit, p1]
    · intro hn x hx
      rw [Bool.or_eq_false_iff] at hn
      rw [hsplit, List.mem_append] at hx
      rcases hx with hx | hx
      · exact p3 hn.1 x (by rw [p1]; exact hx)
      · exact newIn_none hn.2 hb hA hE x hx
  · intro k hb
    obtain ⟨s1, s2, s3, s4⟩ := scanOut_some hb hl2 hl1
    have hkd : k < acts.length - d := by rw [List.length_drop] at s4; omega
    have hld : (els.take d).length = d := by rw [List.length_take]; omega
    refine ⟨?_, ?_, ⟨Or.inl (by omega), by omega⟩, ?_⟩
    · rw [hadm]
      cases hx : allAdmit us (acts.drop d) (r.key.drop d) with
      | false => rfl
      | true => rw [badAt_none.mpr hx] at hb; cases hb
    · rw [List.length_append, s1, hld, List.length_drop]
      omega
    · intro k' hk'
      cases hk'
      have ht : ∀ (l : List Int), (els.take d ++ l).take (d + k) = els.take d ++ l.take k := by
        intro l
        rw [List.take_append, hld, List.take_of_length_le (by omega), Nat.add_sub_cancel_left]
      rw [Nat.add_sub_cancel]
      refine ⟨hk, ?_, ?_, ?_⟩
      · rw [ht, s2, hsplit, List.take_append]
        have hcl : (codes us (acts.take d) (r.key.take d)).length = d := by rw [← p1]; exact hld
        rw [hcl, List.take_of_length_le (l := codes us (acts.take d) (r.key.take d)) (by omega), Nat.add_sub_cancel_left, p1]
      · have e1 : acts.take (d + k) = acts.take d ++ (acts.drop d).take k := by rw [List.take_add]
        have e2 : r.key.take (d + k) = r.key.take d ++ (r.key.drop d).take k := by rw [List.take_add]
        rw [e1, e2, allAdmit_append hl0, p2, s3]
        rfl
      · intro hn x hx
        rw [Bool.or_eq_false_iff] at hn
        rw [ht, List.mem_append] at hx
        rcases hx with hx | hx
        · exact p3 hn.1 x hx
        · rw [s2] at hx
          exact newIn_some hn.2 hb hA hE x hx

/-! ### the user numbers -/

structure MapOk (u : Uel) : Prop where
  hi : 0 ≤ u.usr.highest
  room : u.room ≤ 2147483646
  size : u.size ≤ 2147483646
  num : ∀ e, u.users.num e ≤ u.usr.highest

theorem give_num {us : Users} (h : ∀ e, us.num e ≤ us.hi) (e : Int) : ∀ x, (us.give e).num x ≤ (us.give e).hi := by
  intro x
  unfold Users.give
  split
  · show (if x = e then us.hi + 1 else us.num x) ≤ us.hi + 1
    have := h x
    split <;> omega
  · exact h x

theorem giveAll_num : ∀ (as : List Act) (es : List Int) (us : Users), (∀ e, us.num e ≤ us.hi) → ∀ x, (giveAll as es us).num x ≤ (giveAll as es us).hi
  | [], es, us, h => by simp only [giveAll]; exact h
  | a :: as, [], us, h => by cases a <;> (simp only [giveAll]; exact h)
  | a :: as, e :: es, us, h => by
    cases a with
    | grow => simp only [giveAll]; exact giveAll_num as es _ (give_num h e)
    | _ => simp only [giveAll]; exact giveAll_num as es us h

theorem mapKeys_le {us : Users} {n : Int} (h : ∀ e, us.num e ≤ n) : ∀ {as : List Act} {es : List Int}, (∀ e ∈ es, e ≤ n) → ∀ x ∈ mapKeys us as es, x ≤ n
  | [], _, _, x, hx => by simp [mapKeys] at hx
  | _ :: _, [], _, x, hx => by simp [mapKeys] at hx
  | a :: as, e :: es, he, x, hx => by
    simp only [mapKeys, List.zipWith_cons_cons, List.mem_cons] at hx
    rcases hx with rfl | hx
    · cases a with
      | keep => exact he e (by simp)
      | _ => exact h e
    · exact mapKeys_le h (fun e h => he e (by simp [h])) x hx

/-- the numbers of a complete record -/
theorem resolve_spec {u : Uel} (hu : MapOk u) {acts : List Act} {key : List Int} (hl : acts.length = key.length) (ht : InTab u key)
    (ha : ∀ a ∈ acts, ActOk a) (hadm : allAdmit u.users acts key = true) {new : Bool} (hn : new = false → ∀ x ∈ codes u.users acts key, 0 ≤ x) :
    ∃ u' n, resolveIf new u (codes u.users acts key) = .ok (u', mapKeys u'.users acts key, n) ∧ u'.users = giveAll acts key u.users ∧
      MapOk u' ∧ u'.size = u.size ∧ u'.usr.highest = u.usr.highest + (n : Nat) ∧ u'.strs = u.strs := by
  have hE : ∀ e ∈ key, 1 ≤ e := fun e h => (ht e h).1
  unfold resolveIf
  cases new with
  | false =>
    obtain ⟨p1, p2⟩ := resolve_none hl ha hE hadm (hn rfl)
    refine ⟨u, 0, ?_, p1.symm, hu, rfl, by simp, rfl⟩
    rw [p2]
    rfl
  | true =>
    obtain ⟨u', n, p1, p2, p3, p4, p5, p6⟩ := resolveNew_spec acts key u hl ht hu.hi hu.room ha hadm
    have hsz : u'.size = u.size := by unfold Uel.size; rw [p3]
    refine ⟨u', n, p1, p2, ⟨by have := hu.hi; omega, by rw [p4]; exact hu.room, by rw [hsz]; exact hu.size, ?_⟩, hsz, p5, p6⟩
    intro e
    rw [show u'.usr.highest = u'.users.hi from rfl, p2]
    exact giveAll_num acts key u.users hu.num e

theorem Uel.highest_le_room (u : Uel) : u.usr.highest ≤ u.room := by
  unfold Uel.room
  omega

theorem complete_trans {us : Users} {acts : List Act} {key : List Int} (hl : acts.length = key.length) (ha : ∀ a ∈ acts, ActOk a)
    (hE : ∀ e ∈ key, 1 ≤ e) (h0 : 0 ≤ us.hi) (hadm : allAdmit us acts key = true) :
    KeyAt (giveAll acts key us) acts (some key) (mapKeys (giveAll acts key us) acts key) acts.length false := by
  obtain ⟨p1, p2⟩ := codes_done hl ha hE h0 hadm
  refine ⟨by simp [mapKeys, hl], ⟨?_, Nat.le_refl _⟩, ?_⟩
  · cases acts with
    | nil => exact Or.inr rfl
    | cons a as => exact Or.inl (by simp)
  · intro k hk
    cases hk
    refine ⟨hl.symm, by rw [p1], allAdmit_take _ (allAdmit_le (giveAll_le _ _ _) ha hadm), fun _ x hx => p2 x (List.mem_of_mem_take hx)⟩

/-! ### reading everything into the sort list -/

def recPairs (outs : List (RecOut Int)) : List (List Int × List Dbl) := outs.map fun r => (r.key, r.vals)

theorem sortAdd_map {g : Gx} {s : LData (List Dbl)} (hs : g.sort = some s) (hi : LInv g.nd s) {key : List Int} {vals : List Dbl}
    (hk : key.length = g.nd) (hb : ∀ x ∈ key, 0 ≤ x ∧ x ≤ 2147483646) (hv : vals.length = g.dataSize) :
    ∃ s', sortAdd g key vals = .ok { g with sort := some s' } ∧ LInv g.nd s' ∧ s'.items = s.items ++ [⟨key, vals⟩] := by
  obtain ⟨s', e1, e2, e3⟩ := hi.add ⟨key, vals⟩ ⟨hk, hb⟩
  refine ⟨s', ?_, e3, e2⟩
  unfold sortAdd
  rw [hs]
  simp only [need, Res.bind_ok]
  rw [if_neg (by
    intro h
    rcases h with h | h | h
    · exact h hv
    · exact h hk
    · exact h fun x hx => by
        have := hb x hx
        unfold I32
        constructor <;> omega), e1]
  rfl

theorem RdStep.doms {g g' : Gx} (h : RdStep g g') : g'.doms = g.doms := by rw [h]
theorem RdStep.dataSize {g g' : Gx} (h : RdStep g g') : g'.dataSize = g.dataSize := by rw [h]

/-- the numbers delivered for a complete record -/
theorem mapKeys_ok {u u' : Uel} (hu' : MapOk u') {acts : List Act} {key : List Int} (hl : acts.length = key.length) (ha : ∀ a ∈ acts, ActOk a)
    (ht : InTab u' key) (h0 : 0 ≤ u.users.hi) (hadm : allAdmit u.users acts key = true) (he : u'.users = giveAll acts key u.users) :
    (mapKeys u'.users acts key).length = acts.length ∧ ∀ x ∈ mapKeys u'.users acts key, 0 ≤ x ∧ x ≤ 2147483646 := by
  refine ⟨by simp [mapKeys, hl], fun x hx => ⟨?_, ?_⟩⟩
  · rw [he] at hx
    exact (codes_done hl ha (fun e h => (ht e h).1) h0 hadm).2 x hx
  · refine mapKeys_le (n := 2147483646) (fun e => ?_) (fun e h => ?_) x hx
    · have := hu'.num e
      have := u'.highest_le_room
      have := hu'.room
      omega
    · have := (ht e h).2
      have := hu'.size
      omega

theorem mapLoop_next {g g1 : Gx} {fd : Nat} {vals : List Dbl} (h : doRead g = .ok (g1, some (fd, vals))) {m : MapLoop} {d : Nat}
    (h0 : (if m.fi < fd then m.fi else fd) ≠ 0) (hd : d = (if m.fi < fd then m.fi else fd) - 1) {u : Uel} (hu : g1.uel = some u)
    {l : List Int} {stop : Option (Bool × Nat)} {new : Bool}
    (hs : mapScan u false d (g1.doms.drop d) (g1.last.drop d) (m.els.drop d) = .ok (l, stop, new)) (fuel : Nat) :
    mapLoop (fuel + 1) g m = (mapRecord g1 { m with els := m.els.take d ++ l, fi := g1.nd, addNew := m.addNew || new } vals stop >>= fun x =>
      if x.2.2 then mapLoop fuel x.1 x.2.1 else pure (x.1, x.2.1)) := by
  rw [mapLoop, h]
  simp only [Res.bind_ok]
  rw [if_neg h0, hu]
  simp only [need, Res.bind_ok]
  rw [← hd, hs]
  rfl

theorem mapLoop_spec {g g' : Gx} {outs : List (RecOut Int)} (h : Feeds g outs g') : ∀ {w : Side} {u : Uel} {s : LData (List Dbl)} {m : MapLoop}
    {p : Option (List Int)} {fuel : Nat}, outs.length < fuel → w.uel = some u → MapOk u → w.sort = some s → LInv g.nd s → g.doms.length = g.nd →
    1 ≤ g.nd → RecsOk u.size g.nd g.dataSize outs → FrstsOk g.nd p outs → KeyAt u.users (g.doms.map DAct.act) p m.els m.fi m.addNew →
    ∃ w' m' u' s', mapLoop fuel (g.side w) m = .ok (g'.side w', m') ∧ m'.allocOk = m.allocOk ∧ w'.uel = some u' ∧ MapOk u' ∧ u'.size = u.size ∧
      u'.strs = u.strs ∧ u'.users = (mapAll (g.doms.map DAct.act) u.users (recPairs outs)).1 ∧ w'.sort = some s' ∧ LInv g.nd s' ∧
      s'.items = s.items ++ (mapAll (g.doms.map DAct.act) u.users (recPairs outs)).2.map (fun x => ⟨x.1, x.2⟩) ∧
      w'.nrMapped = w.nrMapped + (u'.usr.highest - u.usr.highest) ∧ w'.prev = w.prev := by
  induction h with
  | @done g g' h =>
    intro w u s m p fuel hf hu ho hs hi hd hn hr hfr hk
    obtain ⟨fuel, rfl⟩ : ∃ k, fuel = k + 1 := ⟨fuel - 1, by simp at hf; omega⟩
    refine ⟨w, m, u, s, ?_, rfl, hu, ho, rfl, rfl, rfl, hs, hi, by simp [recPairs, mapAll], by omega, rfl⟩
    rw [mapLoop, doRead_side_ok h w]
    rfl
  | @next g g1 g' r rs h hl _ ih =>
    intro w u s m p fuel hf hu ho hs hi hd hn hr hfr hk
    obtain ⟨fuel, rfl⟩ : ∃ k, fuel = k + 1 := ⟨fuel - 1, by simp at hf; omega⟩
    have hst := ((doRead_step _).of_ok h).1
    simp only at hst
    have hnd := hst.nd
    have hdm := hst.doms
    have hds := hst.dataSize
    obtain ⟨hrk, hre, hrv⟩ := hr r (by simp)
    have hrest : RecsOk u.size g.nd g.dataSize rs := fun x hx => hr x (by simp [hx])
    have hal : (g.doms.map DAct.act).length = g.nd := by rw [List.length_map, hd]
    have hf1 : FrstOk (g.doms.map DAct.act).length p r := by rw [hal]; exact hfr.1
    have hA : ∀ a ∈ g.doms.map DAct.act, ActOk a := by
      intro a ha
      obtain ⟨b, _, rfl⟩ := List.mem_map.mp ha
      exact b.ok
    have hE : ∀ e ∈ r.key, 1 ≤ e := fun e he => (hre e he).1
    have hlk : (g.doms.map DAct.act).length = r.key.length := by rw [hal, hrk]
    have hacts : g.doms.map DAct.act ≠ [] := by
      intro he
      rw [he] at hal
      simp at hal
      omega
    have hfd : (if m.fi < r.frst then m.fi else r.frst) ≠ 0 := by
      have h1 : 1 ≤ m.fi := hk.fiOk.1.resolve_right hacts
      have h2 := hf1.1
      rw [hal] at h2
      split <;> omega
    obtain ⟨d, hdd⟩ : ∃ d, d = (if m.fi < r.frst then m.fi else r.frst) - 1 := ⟨_, rfl⟩
    have hsc := hk.scan hf1 hlk.symm hE hA hdd
    have hms := mapScan_spec (u := u) (hi := false) (g.doms.drop d) (r.key.drop d) (m.els.drop d) d
      (fun e he => hre e (List.mem_of_mem_drop he)) (by simp [hd, hrk]) (by simp [hk.len, hd, hrk])
    rw [List.map_drop] at hms
    rw [mapLoop_next (g := g.side w) (doRead_side_ok h w) hfd hdd (u := u) hu
      (by rw [show (g1.side w).doms = g.doms from hdm, show (g1.side w).last = r.key from hl]; exact hms) fuel,
      show (g1.side w).nd = g.nd from hnd]
    cases hb : badAt u.users ((g.doms.map DAct.act).drop d) (r.key.drop d) with
    | some k =>
      obtain ⟨q1, q2⟩ := hsc.2 k hb
      have hbad : ((g1.side w).last.drop (d + k + 2)).any (· < 0) = false := by
        rw [show (g1.side w).last = r.key from hl, List.any_eq_false]
        intro e he
        have := hE e (List.mem_of_mem_drop he)
        simp
        omega
      obtain ⟨l, hl2⟩ := addErrDom_side g1 w (r.key.modify (d + k) (- ·)) r.vals
      simp only [Option.map_some, mapRecord]
      rw [hbad]
      simp only [Bool.false_eq_true, if_false, Res.pure_eq, Res.bind_ok, if_true]
      rw [show (g1.side w).last = r.key from hl, hl2]
      obtain ⟨w', m', u', s', c1, c2, c3, c4, c5, c6, c7, c8, c9, c10, c11, c12⟩ := ih (w := { w with errList := l })
        (m := { m with els := m.els.take d ++ scanOut u.users ((g.doms.map DAct.act).drop d) (r.key.drop d) (m.els.drop d), fi := d + k + 1,
                       addNew := m.addNew || newIn u.users ((g.doms.map DAct.act).drop d) (r.key.drop d), allocOk := m.allocOk && !false })
        (p := some r.key) (fuel := fuel) (by simp at hf; omega) hu ho hs (by rw [hnd]; exact hi) (by rw [hdm, hnd]; exact hd) (by rw [hnd]; exact hn)
        (by rw [hnd, hds]; exact hrest) (by rw [hnd]; exact hfr.2) (by rw [hdm]; exact q2)
      rw [hdm] at c7 c10
      have hma : mapAll (g.doms.map DAct.act) u.users (recPairs (r :: rs)) = mapAll (g.doms.map DAct.act) u.users (recPairs rs) := by
        simp only [recPairs, List.map_cons, mapAll, q1, Bool.false_eq_true, if_false]
      rw [hma]
      exact ⟨w', m', u', s', c1, by rw [c2]; simp, c3, c4, c5, c6, c7, c8, by rw [← hnd]; exact c9, c10, c11, c12⟩
    | none =>
      obtain ⟨q1, q2, q3⟩ := hsc.1 hb
      rw [q2]
      obtain ⟨u1, n, e1, e2, e3, e4, e5, e6⟩ := resolve_spec ho hlk hre hA q1 q3
      have hk0 : 0 ≤ u.users.hi := ho.hi
      obtain ⟨k1, k2⟩ := mapKeys_ok (u := u) e3 hlk hA (fun e he => by rw [e4]; exact hre e he) hk0 q1 e2
      simp only [Option.map_none, mapRecord]
      rw [show need (g1.side w).uel = .ok u by show need w.uel = _; rw [hu]; rfl]
      simp only [Res.bind_ok]
      rw [e1]
      simp only [Res.bind_ok]
      obtain ⟨s1, f1, f2, f3⟩ := sortAdd_map (g := { g1.side w with uel := some u1, nrMapped := (g1.side w).nrMapped + (n : Int) }) (s := s) hs
        (by show LInv g1.nd s; rw [hnd]; exact hi) (key := mapKeys u1.users (g.doms.map DAct.act) r.key) (vals := r.vals)
        (by show _ = g1.nd; rw [k1, hal, hnd]) k2 (by show _ = g1.dataSize; rw [hds, hrv])
      rw [f1]
      simp only [Res.bind_ok, Res.pure_eq, if_true]
      have hct := complete_trans hlk hA hE hk0 q1
      obtain ⟨w', m', u', s', c1, c2, c3, c4, c5, c6, c7, c8, c9, c10, c11, c12⟩ := ih (w := { w with uel := some u1, nrMapped := w.nrMapped + n, sort := some s1 })
        (m := { m with els := mapKeys u1.users (g.doms.map DAct.act) r.key, fi := g.nd, addNew := false })
        (p := some r.key) (fuel := fuel) (by simp at hf; omega) rfl e3 rfl (by exact f2) (by rw [hdm, hnd]; exact hd) (by rw [hnd]; exact hn)
        (by rw [hnd, hds, e4]; exact hrest) (by rw [hnd]; exact hfr.2) (by rw [hdm, e2, ← hal]; exact hct)
      rw [hdm, e2] at c7 c10
      have hma : mapAll (g.doms.map DAct.act) u.users (recPairs (r :: rs)) =
          ((mapAll (g.doms.map DAct.act) (giveAll (g.doms.map DAct.act) r.key u.users) (recPairs rs)).1,
           (mapKeys u1.users (g.doms.map DAct.act) r.key, r.vals) :: (mapAll (g.doms.map DAct.act) (giveAll (g.doms.map DAct.act) r.key u.users) (recPairs rs)).2) := by
        simp only [recPairs, List.map_cons, mapAll, q1, if_true, e2]
      rw [hma]
      refine ⟨w', m', u', s', c1, c2, c3, c4, c5.trans e4, c6.trans e6, c7, c8, by rw [← hnd]; exact c9, ?_, ?_, c12⟩
      · rw [c10, f3]
        simp
      · rw [c11, e5]
        simp only
        omega

end Gdx
