import Verif.Proofs.Reopen

/-!
Files written by the library itself: opening them leaves a correct object, so that histories with several files need no
assumption about their content.
-/

namespace Gdx

open Gdx.Props

/-- a file written and closed by the library -/
def Own (z : Cz) (f : List UInt8) : Prop :=
  ∃ (g g' : Gx) (r : Int), Inv g ∧ g.mode = .wInit ∧ g.stat = .write ∧ gdxClose z g = .ok (g', r) ∧ FileFits g ∧
    (g'.file.length : Int) ≤ 9223372036854775807 ∧ f = g'.file

theorem SymOk.reopened {syms : List Sym} {nd n : Nat} {s : Sym} (h : SymOk syms nd n s) :
    SymOk (syms.map Sym.reopened) nd n s.reopened where
  good := h.good
  typ := h.typ
  dim := h.dim
  ui := h.ui
  expl := h.expl
  ali := fun ht => by
    rcases h.ali ht with h1 | ⟨m, t, h1, h2, h3, h4, h5⟩
    · exact Or.inl h1
    · exact Or.inr ⟨m, t.reopened, h1, h2, by rw [List.getElem?_map, h3]; rfl, h4, h5⟩
  dsy := fun l hl => by rw [List.length_map]; exact h.dsy l hl
  dst := h.dst
  com := h.com
  cnt := h.cnt

theorem SymsOk.reopened {syms : List Sym} {nd : Nat} (h : SymsOk syms nd) : SymsOk (syms.map Sym.reopened) nd := by
  refine ⟨?_, ?_⟩
  · rw [List.map_map]
    exact h.distinct
  · intro n s hs
    rw [List.getElem?_map] at hs
    cases hs' : syms[n]? with
    | none => rw [hs'] at hs; cases hs
    | some t =>
      rw [hs'] at hs
      cases hs
      exact (h.each n t hs').reopened

theorem digits_zfree : ∀ fuel n : Nat, ZFree (digits fuel n)
  | 0, n => by simp [digits, ZFree]
  | fuel + 1, n => by
    unfold digits
    have key : ∀ k, k < 10 → UInt8.ofNat (48 + k) ≠ 0 := by decide
    split
    · rename_i h
      intro c hc
      rw [List.mem_singleton.mp hc]
      exact key n h
    · intro c hc
      rcases List.mem_append.mp hc with hc | hc
      · exact digits_zfree fuel _ c hc
      · rw [List.mem_singleton.mp hc]
        exact key _ (Nat.mod_lt _ (by decide))

theorem intToStr_zfree (i : Int) : ZFree (intToStr i) := by
  unfold intToStr
  split
  · intro c hc
    rcases List.mem_cons.mp hc with rfl | hc
    · decide
    · exact digits_zfree _ _ c hc
  · exact digits_zfree _ _

theorem AcrosZ.reopened {l : List Acr} (h : AcrosZ l) : AcrosZ (l.map Acr.reopened) := by
  refine ⟨?_, ?_⟩
  · intro a ha
    obtain ⟨b, hb, rfl⟩ := List.mem_map.mp ha
    have := h.each b hb
    refine ⟨?_, this.2.1, this.2.2⟩
    show ZFree b.saveName
    unfold Acr.saveName
    split
    · intro c hc
      rcases List.mem_append.mp hc with hc | hc
      · exact (by decide : ∀ c ∈ unknownACRO, c ≠ 0) c hc
      · exact intToStr_zfree _ c hc
    · exact this.1
  · rw [List.map_map]
    exact h.maps

theorem Reopened.inv {rm : Int} {g g0 g2 : Gx} {f : List UInt8} (h : Reopened rm g f g2) (hk : OpenKeep rm g0 g2) (hi : Inv g)
    (h0 : Inv g0) (hs : HeadInv g2) : Inv g2 := by
  obtain ⟨l, hl1, hl2⟩ := h.names
  obtain ⟨u, hu1, hu2, hu3⟩ := h.uel
  obtain ⟨a, ha1, ha2⟩ := h.acros
  obtain ⟨d, hd1, hd2⟩ := h.doms
  have hnd : g2.nDom = g.nDom := by unfold Gx.nDom; rw [hd1, hd2]
  refine ⟨⟨?_, ?_⟩, ?_, ?_, ?_, ?_, hs⟩
  · intro syms hsy
    rw [hl2] at hsy
    cases hsy
    rw [hnd]
    exact (hi.tab.syms l hl1).reopened
  · rw [hk.dcnt]; exact h0.tab.cnt
  · intro u' hu'
    rw [hu2] at hu'
    cases hu'
    have hst : ({ Uel.empty with ents := u.strs.map (·, -1) } : Uel).strs = u.strs := by
      show (u.strs.map (·, (-1 : Int))).map Prod.fst = _
      rw [List.map_map]
      exact List.map_id' _
    have := hi.els u hu1
    exact ⟨by rw [hst]; exact this.distinct, by rw [hst]; exact this.good⟩
  · intro t ht
    by_cases hrm : rm % 2 = 0
    · obtain ⟨t', ht1, ht2⟩ := h.texts hrm
      rw [ht2] at ht
      cases ht
      have e : (t'.map fun p => (p.1, (0 : Int))).map Prod.fst = t'.map Prod.fst := by rw [List.map_map]; rfl
      rw [TextsZ.iff, e]
      exact TextsZ.iff.mp (hi.txt t' ht1)
    · rw [hk.texts hrm] at ht
      exact h0.txt t ht
  · intro a' ha'
    rw [ha2] at ha'
    cases ha'
    exact (hi.acr a ha1).reopened
  · intro d' hd'
    rw [hd2] at hd'
    cases hd'
    exact hi.dom d hd1

/-- after closing the file still begins with the header -/
theorem close_head {z : Cz} {g g' : Gx} {r : Int} (hm : g.mode = .wInit) (hh : Head g) (hc : gdxClose z g = .ok (g', r)) :
    ∃ (e : Env) (c : Int) (p : Str) (h t : List UInt8), fileHeader e c p = .ok h ∧ (c = 0 ∨ c = 1) ∧
    g.comprOut = decide (c > 0) ∧ g.comprLev = c ∧ g.fsId = e.audit ∧ g.producer = p ∧ g.majorPos = h.length ∧ g'.file = h ++ t := by
  obtain ⟨⟨e, c, p, h, t0, hh, hc01, hco, hlev, hfs, hpr, hmaj, hfile⟩, hnext, _⟩ := hh
  unfold gdxClose at hc
  have e1 : finishWrite z g = .ok g := by unfold finishWrite; rw [hm, if_neg (by decide)]
  rw [e1] at hc
  simp only [Res.bind_ok] at hc
  have e2 : saveIf z g = saveFile z g := by unfold saveIf; rw [if_pos hm]
  rw [e2] at hc
  obtain ⟨g1, hg1, hc⟩ := Res.bind_eq_ok.mp hc
  cases hc
  unfold saveFile at hg1
  rw [if_neg (by omega)] at hg1
  obtain ⟨t, ht, hg1⟩ := Res.bind_eq_ok.mp hg1
  cases hg1
  obtain ⟨t1, ht1⟩ := splice_prefix h t0 g.nextWrite.toNat t.all (by omega)
  obtain ⟨t2, ht2⟩ := splice_prefix h t1 g.majorPos (indexBytes g.nextWrite t) (by omega)
  refine ⟨e, c, p, h, t2, hh, hc01, hco, hlev, hfs, hpr, hmaj, ?_⟩
  show splice (splice g.file g.nextWrite.toNat t.all) g.majorPos (indexBytes g.nextWrite t) = _
  rw [hfile, ht1, ht2]

/-- an object of which only errors and places in memory have changed -/
theorem Inv.ctrl {a b : Gx} (h : Inv a) (hn : b.names = a.names) (hd : b.domStrs = a.domStrs) (hc : b.dataCount = a.dataCount)
    (hu : b.uel = a.uel) (ht : b.texts = a.texts) (ha : b.acros = a.acros) (hh : HeadInv b) : Inv b :=
  ⟨h.tab.same hn hd hc, fun u hu' => h.els u (hu ▸ hu'), fun l hl => h.txt l (ht ▸ hl), fun l hl => h.acr l (ha ▸ hl),
   fun l hl => h.dom l (hd ▸ hl), hh⟩

theorem Inv.openRead {z : Cz} (hz : z.Good) {g0 : Gx} {d : Disk} {rm : Int} (hd : ∀ f, d = .content f → Own z f) (h : Inv g0) :
    (openReadXX z g0 d rm).All fun x => Inv x.1 := by
  by_cases hm : g0.mode = .notOpen
  · cases d with
    | noName =>
      unfold openReadXX
      rw [if_neg (by simp [hm])]
      exact h.ctrl rfl rfl rfl rfl rfl rfl fun hw => ⟨(h.head hw).ex, (h.head hw).next, (h.head hw).pos, (h.head hw).tabs.same rfl rfl rfl rfl rfl⟩
    | ioErr e =>
      unfold openReadXX
      rw [if_neg (by simp [hm])]
      exact h.ctrl rfl rfl rfl rfl rfl rfl fun hw => ⟨(h.head hw).ex, (h.head hw).next, (h.head hw).pos, (h.head hw).tabs.same rfl rfl rfl rfl rfl⟩
    | content f =>
      obtain ⟨g, g', r, hi, h1, h2, h3, h4, h5, rfl⟩ := hd f rfl
      obtain ⟨g2, h6, h7, h8⟩ := close_open hz hi h1 h2 h3 h4 h5 g0 hm rm
      rw [h6]
      exact h7.inv h8 hi h (fun hw => by rw [h7.stat] at hw; cases hw)
  · unfold openReadXX
    rw [if_pos (by simpa using hm)]
    exact h

theorem Inv.openAppend {z : Cz} (hz : z.Good) {g0 : Gx} {d : Disk} {p : Str} (hd : ∀ f, d = .content f → Own z f) (h : Inv g0) :
    (Gdx.openAppend z g0 d p).All fun x => Inv x.1 := by
  have h0' : Inv { g0 with producer2 := p, appendActive := true } :=
    h.ctrl rfl rfl rfl rfl rfl rfl fun hw => ⟨(h.head hw).ex, (h.head hw).next, (h.head hw).pos, (h.head hw).tabs.same rfl rfl rfl rfl rfl⟩
  unfold Gdx.openAppend
  by_cases hm : g0.mode = .notOpen
  · cases d with
    | noName =>
      have : openReadXX z { g0 with producer2 := p, appendActive := true } .noName 0 =
          .ok (openNoGood { ({ g0 with producer2 := p, appendActive := true } : Gx).initErrors with readPtr := none } Err.noFile) := by
        unfold openReadXX
        rw [if_neg (by simp [hm])]
        rfl
      simp only [this, Res.bind_ok]
      exact h.ctrl rfl rfl rfl rfl rfl rfl fun hw => ⟨(h.head hw).ex, (h.head hw).next, (h.head hw).pos, (h.head hw).tabs.same rfl rfl rfl rfl rfl⟩
    | ioErr e =>
      have : openReadXX z { g0 with producer2 := p, appendActive := true } (.ioErr e) 0 =
          .ok (openNoGood { ({ g0 with producer2 := p, appendActive := true } : Gx).initErrors with readPtr := none } e) := by
        unfold openReadXX
        rw [if_neg (by simp [hm])]
        rfl
      simp only [this, Res.bind_ok]
      exact h.ctrl rfl rfl rfl rfl rfl rfl fun hw => ⟨(h.head hw).ex, (h.head hw).next, (h.head hw).pos, (h.head hw).tabs.same rfl rfl rfl rfl rfl⟩
    | content f =>
      obtain ⟨g, g', r, hi, h1, h2, h3, h4, h5, rfl⟩ := hd f rfl
      obtain ⟨g2, h6, h7, h8⟩ := close_open hz hi h1 h2 h3 h4 h5 { g0 with producer2 := p, appendActive := true } hm 0
      simp only [h6, Res.bind_ok]
      rw [if_neg (by decide), if_neg (by rw [h7.ver]; decide)]
      have hinv := h7.inv h8 hi h0' (fun hw => by rw [h7.stat] at hw; cases hw)
      refine hinv.ctrl rfl rfl rfl rfl rfl rfl fun _ => ?_
      obtain ⟨e, c, p', hd', t, q1, q2, q3, q4, q5, q6, q7, q8⟩ := close_head h1 (hi.head h2) h3
      refine ⟨⟨e, c, p', hd', t, q1, q2, h7.unc.trans q3, h7.lev.trans q4, h7.fs.trans q5, h7.prod.trans q6, h7.major.trans q7,
        h7.file.trans q8⟩, ?_, ?_, ?_⟩
      · show (g2.majorPos : Int) + 80 ≤ g2.nextWrite
        rw [h7.major, h7.next]
        exact (hi.head h2).next
      · intro syms hs s hs'
        obtain ⟨l, hl1, hl2⟩ := h7.names
        have hs2 : g2.names = some syms := hs
        rw [hl2] at hs2
        cases hs2
        obtain ⟨s0, hs0, rfl⟩ := List.mem_map.mp hs'
        show 0 ≤ s0.pos ∧ s0.pos ≤ g2.nextWrite
        rw [h7.next]
        exact (hi.head h2).pos l hl1 s0 hs0
      · obtain ⟨l1, _, a1⟩ := h7.texts rfl
        obtain ⟨l2, _, a2⟩ := h7.names
        obtain ⟨l3, _, a3, _⟩ := h7.uel
        obtain ⟨l4, _, a4⟩ := h7.acros
        obtain ⟨l5, _, a5⟩ := h7.doms
        exact ⟨(congrArg Option.isSome a1).trans rfl, (congrArg Option.isSome a2).trans rfl, (congrArg Option.isSome a3).trans rfl,
          (congrArg Option.isSome a4).trans rfl, (congrArg Option.isSome a5).trans rfl⟩
  · have : openReadXX z { g0 with producer2 := p, appendActive := true } d 0 =
        .ok ({ g0 with producer2 := p, appendActive := true }, (false, Err.fileAlreadyOpen)) := by
      unfold openReadXX
      rw [if_pos (by simpa using hm)]
      rfl
    simp only [this, Res.bind_ok]
    exact h0'

/-- all existing files that a history opens were written by the library -/
def OpensOwn (z : Cz) (cs : List Call) : Prop :=
  ∀ c ∈ cs, (∀ d m, c = .openRead d m → ∀ f, d = .content f → Own z f) ∧ (∀ d p, c = .openAppend d p → ∀ f, d = .content f → Own z f)

theorem opensOk_own {z : Cz} (hz : z.Good) (e : Env) : ∀ (cs : List Call) (g : Gx), (∀ c ∈ cs, c.WF) → Aft g → Inv g →
    OpensOwn z cs → OpensOk Inv e z g cs
  | [], _, _, _, _, _ => trivial
  | c :: cs, g, hc, ha, h, ho => by
    intro g' hg'
    have hthis : c.opensRead = true → Inv g' := by
      intro hr
      cases c with
      | openRead d m => exact (stateOf_all (Inv.openRead hz (rm := m) ((ho _ (by simp)).1 d m rfl) h)).of_ok hg'
      | openAppend d p => exact (stateOf_all (Inv.openAppend hz (p := p) ((ho _ (by simp)).2 d p rfl) h)).of_ok hg'
      | _ => cases hr
    have hi : Inv g' := by
      by_cases hr : c.opensRead = true
      · exact hthis hr
      · have h1 := Inv.run e z [c] g (by simpa using hc c (by simp)) ha h (opensOk_of e z [c] g (by simpa using hr))
        refine (h1.of_ok (a := g') ?_).2
        show (step e z g c >>= fun g => .ok g) = _
        rw [hg']
        rfl
    exact ⟨hthis, opensOk_own hz e cs g' (fun c' h' => hc c' (by simp [h'])) ((step_aft e z (hc c (by simp)) ha).of_ok hg') hi
      (fun c' h' => ho c' (by simp [h']))⟩

end Gdx
