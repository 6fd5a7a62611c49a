import Verif.Proofs.SvInv
import Verif.Proofs.UsrInv
import Verif.Proofs.RawSeq

/-!
All the invariants of histories together.
-/

namespace Gdx

/-- what holds for every object that opened only files of the library -/
structure Fine (g : Gx) : Prop where
  aft : Aft g
  inv : Inv g
  sv : SvOk g
  ph : Phased g
  usr : UsrRange g

theorem Fine.new : Fine Gx.new := ⟨aft_new, Inv.new, SvOk.new, Phased.new, UsrRange.new⟩

theorem run_one {e : Env} {z : Cz} {g g' : Gx} {c : Call} (h : step e z g c = .ok g') : run e z g [c] = .ok g' := by
  show (Gdx.step e z g c >>= fun g => .ok g) = _
  rw [h]
  rfl

theorem run_append (e : Env) (z : Cz) : ∀ (cs ds : List Call) (g : Gx), run e z g (cs ++ ds) = run e z g cs >>= fun g => run e z g ds
  | [], _, _ => rfl
  | c :: cs, ds, g => by
    show (Gdx.step e z g c >>= fun g => Gdx.run e z g (cs ++ ds)) = (Gdx.step e z g c >>= fun g => Gdx.run e z g cs) >>= _
    cases Gdx.step e z g c with
    | ub => rfl
    | ok x => exact run_append e z cs ds x

theorem Fine.run {e : Env} {z : Cz} (hz : z.Good) {cs : List Call} {g g' : Gx} (hc : ∀ c ∈ cs, c.WF) (ho : OpensOwn z cs)
    (h : Fine g) (hr : run e z g cs = .ok g') : Fine g' := by
  have h1 := (Inv.run e z cs g hc h.aft h.inv (opensOk_own hz e cs g hc h.aft h.inv ho)).of_ok hr
  exact ⟨h1.1, h1.2, (SvOk.run e z cs g hc h.aft h.sv).of_ok hr, (Phased.run e z cs g h.ph).of_ok hr,
    (UsrRange.run e z cs g hc h.aft h.usr).of_ok hr⟩

theorem Fine.stay {e : Env} {z : Cz} {cs : List Call} {g g' : Gx} (hc : ∀ c ∈ cs, c.WF) (ho : ∀ c ∈ cs, c.opensRead = false)
    (h : Fine g) (hr : Gdx.run e z g cs = .ok g') : Fine g' := by
  have h1 := (Inv.run e z cs g hc h.aft h.inv (opensOk_of e z cs g ho)).of_ok hr
  exact ⟨h1.1, h1.2, (SvOk.run e z cs g hc h.aft h.sv).of_ok hr, (Phased.run e z cs g h.ph).of_ok hr,
    (UsrRange.run e z cs g hc h.aft h.usr).of_ok hr⟩

theorem Fine.step {e : Env} {z : Cz} {c : Call} {g g' : Gx} (hc : c.WF) (ho : c.opensRead = false) (h : Fine g)
    (hr : Gdx.step e z g c = .ok g') : Fine g' :=
  h.stay (cs := [c]) (by simpa using hc) (by simpa using ho) (run_one hr)

/-- a call of gdxDataWriteRaw is a call with allowed arguments, or changes the object like one -/
theorem writeRaw_call {e : Env} {z : Cz} {g g' : Gx} {key : List Int} {vals : List Dbl} {b : Bool} (hw : dataWriteRaw g key vals = .ok (g', b)) :
    ∃ key', (∀ x ∈ key', I32 x) ∧ step e z g (.writeRaw key' vals) = .ok g' := by
  by_cases hk : ∀ x ∈ key, I32 x
  · exact ⟨key, hk, by show stateOf _ = _; rw [hw]; rfl⟩
  · refine ⟨[], by simp, ?_⟩
    have : (g' = (if g.mode = .wDomRaw then { g with mode := .wRaw } else g).raise Err.badMode) := by
      unfold dataWriteRaw at hw
      generalize hg : (if g.mode = .wDomRaw then ({ g with mode := .wRaw } : Gx) else g) = gg at hw ⊢
      rcases chk_cases gg [.wRaw] with ⟨_, hc⟩ | ⟨_, hc⟩
      · simp only [hc, Bool.true_eq_false, if_false] at hw
        exact absurd (doWrite_cases hw).2.2.1 hk
      · simp only [hc, if_true] at hw
        cases hw
        rfl
    show stateOf (dataWriteRaw g [] vals) = _
    unfold dataWriteRaw at hw ⊢
    generalize hg : (if g.mode = .wDomRaw then ({ g with mode := .wRaw } : Gx) else g) = gg at hw this ⊢
    rcases chk_cases gg [.wRaw] with ⟨_, hc⟩ | ⟨_, hc⟩
    · simp only [hc, Bool.true_eq_false, if_false] at hw
      exact absurd (doWrite_cases hw).2.2.1 hk
    · simp only [hc, if_true]
      rw [this]
      rfl

theorem Call.between.stays {c : Call} (h : c.between) : c.opensRead = false := by
  rcases h with h | ⟨ids, rfl⟩
  · revert h
    cases c <;> simp [Call.quiet, Call.opensRead]
  · rfl

theorem Fine.rawLog {e : Env} {z : Cz} {g g' : Gx} {l : List RawEntry} (hl : RawLog e z g l g') :
    Fine g → Fine g' ∧ ∀ x ∈ l, setSpecialValues x.sv = some x.sv := by
  induction hl with
  | nil g => exact fun h => ⟨h, by simp⟩
  | write hw _ ih =>
    intro h
    obtain ⟨key', h1, h2⟩ := writeRaw_call (e := e) (z := z) hw
    obtain ⟨i1, i2⟩ := ih (h.step (c := .writeRaw key' _) h1 rfl h2)
    refine ⟨i1, ?_⟩
    intro x hx
    rcases List.mem_cons.mp hx with rfl | hx
    · exact h.sv
    · exact i2 x hx
  | other hc hw hs _ ih => exact fun h => ih (h.step hw hc.stays hs)

theorem Fine.stat {g : Gx} (h : Fine g) (hm : g.mode = .wInit) : g.stat = .write := h.ph.stat (Or.inl (Or.inl hm))

/-! ### start of a symbol in raw mode -/

/-- a new symbol was put at the end of the table -/
structure FreshSym (g g' : Gx) (typ : Int) : Prop where
  bogus : g'.allowBogus = g.allowBogus
  bits : g'.wrBits = List.replicate g'.nd none
  tab : ∃ syms sy, g.names = some syms ∧ g'.names = some (syms ++ [sy]) ∧ g'.cur = .sym (syms.length + 1) ∧ sy.dim = g'.curDim ∧
    (∀ b, sy.bitmap = some b → ∀ k, b.get k = false) ∧ (typ = 0 → sy.dim = 1 → g.storeDom = true → sy.bitmap.isSome = true)

theorem freshSym_bits {typ dim : Int} {c : Bool} {sy : Sym} (h : sy.bitmap = if typ = 0 ∧ dim = 1 ∧ c = true then some BitArr.empty else none)
    (h2 : sy.dim = dim) :
    (∀ b, sy.bitmap = some b → ∀ k, b.get k = false) ∧ (typ = 0 → sy.dim = 1 → c = true → sy.bitmap.isSome = true) := by
  refine ⟨?_, ?_⟩
  · intro b hb k
    rw [h] at hb
    split at hb
    · cases hb
      rw [BitArr.get_eq .empty]
      split <;> rfl
    · cases hb
  · intro e1 e2 e3
    rw [h, if_pos ⟨by omega, by omega, e3⟩]
    rfl

/-- the object after a start call with key bounds `bs` -/
structure Started (g g' : Gx) (d t : Int) (bs : List (Int × Int)) : Prop where
  mode : RawMode g'.mode
  dim : g'.curDim = d
  range : 0 ≤ d ∧ d ≤ 20
  typ : 0 ≤ t ∧ t ≤ 3
  size : g'.dataSize = dataTypSize t.toNat
  bounds : g'.bounds = bs
  wrBits : ∀ w ∈ g'.wrBits, w = none
  errs : g'.errList = none
  sv : g'.sv = g.sv
  acros : g'.acros = g.acros
  stat : g'.stat = g.stat
  cnt : g'.errCnt = g.errCnt
  total : g'.errTotal = g.errTotal
  raised : g'.raised = g.raised
  new : FreshSym g g' t

theorem started {g gp g' : Gx} {name text : Str} {dim typ ui n : Int} {m : Mode} (hp : prepareWrite g name text dim typ ui = .ok (gp, true))
    {bs : List (Int × Int)} (hi : initDoWrite { gp with bounds := bs } n = .ok g') (hm : RawMode m) :
    Started g { g' with mode := m } dim typ bs := by
  rcases prepareWrite_cases hp with ⟨hf, _⟩ | ⟨_, _, syms, sy, h1, h2, h3, h4, h5, h6, h7, h8, h9, hd, ht, he⟩
  · cases hf
  obtain ⟨_, _, _, m', syms', s', e1, e2, e3, rfl⟩ := initDoWrite_ok hi
  subst he
  refine ⟨hm, rfl, hd, ht, rfl, rfl, fun w hw => List.eq_of_mem_replicate hw, rfl, rfl, rfl, rfl, rfl, rfl, rfl, ⟨rfl, rfl, syms, { s' with pos := g.nextWrite }, h1, ?_, rfl, ?_, ?_⟩⟩
  · cases e1
    cases e2
    show some ((syms ++ [sy]).set syms.length _) = _
    rw [List.set_append_right _ _ (by omega), Nat.sub_self]
    rfl
  · cases e1
    cases e2
    rw [List.getElem?_append_right (by omega), Nat.sub_self] at e3
    cases e3
    exact h3
  · cases e1
    cases e2
    rw [List.getElem?_append_right (by omega), Nat.sub_self] at e3
    cases e3
    exact freshSym_bits h9 h3

theorem rawStart_started {g g' : Gx} {name text : Str} {dim typ ui : Int}
    (h : dataWriteRawStart g name text dim typ ui = .ok (g', true)) : Started g g' dim typ (List.replicate dim.toNat (0, intMax)) := by
  unfold dataWriteRawStart at h
  obtain ⟨⟨gp, ok⟩, h1, h⟩ := Res.bind_eq_ok.mp h
  cases ok with
  | false => cases h
  | true =>
    simp only [Bool.true_eq_false, if_false] at h
    obtain ⟨g2, h2, h⟩ := Res.bind_eq_ok.mp h
    cases h
    have hnd : gp.nd = dim.toNat := by
      rcases prepareWrite_cases h1 with ⟨hf, _⟩ | ⟨_, _, _, _, _, _, _, _, _, _, _, _, _, _, _, he⟩
      · cases hf
      · rw [he]; rfl
    rw [hnd] at h2
    exact started h1 h2 (Or.inr rfl)

theorem rawStartBounds_started {g g' : Gx} {name text : Str} {dim typ ui : Int} {bs : List (Int × Int)}
    (h : dataWriteRawStartKeyBounds g name text dim typ ui bs = .ok (g', true)) : Started g g' dim typ bs ∧ bs.length = dim.toNat := by
  unfold dataWriteRawStartKeyBounds at h
  obtain ⟨⟨gp, ok⟩, h1, h⟩ := Res.bind_eq_ok.mp h
  cases ok with
  | false => cases h
  | true =>
    simp only [Bool.true_eq_false, if_false] at h
    split at h
    · cases h
    rename_i hb
    obtain ⟨g2, h2, h⟩ := Res.bind_eq_ok.mp h
    cases h
    have hnd : gp.nd = dim.toNat := by
      rcases prepareWrite_cases h1 with ⟨hf, _⟩ | ⟨_, _, _, _, _, _, _, _, _, _, _, _, _, _, _, he⟩
      · cases hf
      · rw [he]; rfl
    exact ⟨started h1 h2 (Or.inr rfl), by rw [← hnd]; exact not_not.mp hb⟩

theorem Sess.doneTotal {z : Cz} {g : Gx} {m : Nat} {d : SymDesc} {rs : List Rec} {l : List Given} (h : Sess g m d rs l)
    (hr : RawMode g.mode) (hi : Inv g) (hs : g.stat = .write) : ∃ g', dataWriteDone z g = .ok (g', true) := by
  have hn := (hi.head hs).next
  unfold dataWriteDone
  rcases chk_cases g [.wRaw, .wMap, .wStr, .wDomRaw, .wDomMap, .wDomStr] with ⟨hm, hc⟩ | ⟨hm, hc⟩
  · simp only [hc, Bool.true_eq_false, if_false]
    rw [if_pos (show g.mode = .wRaw ∨ g.mode = .wDomRaw from hr)]
    obtain ⟨syms, s, e1, e2, _⟩ := h.sym
    have hcur := h.blk.cur
    unfold Gdx.finishBlock
    have e3 : g.curSym = .ok s := by
      unfold Gx.curSym
      rw [hcur, e1]
      simp only [need, Res.bind_ok]
      rw [show ((m + 1 : Nat) : Int) = (m : Int) + 1 by push_cast; rfl]
      exact at1_nat e2
    rw [e3]
    simp only [Res.bind_ok]
    rw [if_neg (by omega)]
    unfold Gx.modCur
    rw [hcur, e1]
    simp only [need, Res.bind_ok]
    rw [if_pos ⟨by omega, (List.getElem?_eq_some_iff.mp e2).1⟩]
    exact ⟨_, rfl⟩
  · rcases hr with hr | hr <;> simp [hr] at hm

end Gdx
