import Verif.Model.Merge
import Verif.Proofs.Evo
import Verif.Proofs.DiffWrite
import Verif.Props.Closing

/-! Comments and acronyms of the output file of gdxmerge: they are always short enough for gdxClose. -/

namespace Gdx.Props
open Gdx Gdx.Merge Gdx.Spec

/-- the condition of `C87_close` -/
def Closable (g : Gx) : Prop := CommentsEnd g ∧ AcronymsShort g

theorem Closable.same {a b : Gx} (h : Closable a) (hn : b.names = a.names) (ha : b.acros = a.acros) : Closable b :=
  ⟨fun l hl => h.1 l (hn ▸ hl), fun l hl => h.2 l (ha ▸ hl)⟩

theorem Closable.set {a b : Gx} (h : Closable a) {l : List Sym} {n : Nat} {s s' : Sym} (hl : a.names = some l) (hs : l[n]? = some s) (hc : s'.comments = s.comments)
    (hn : b.names = some (l.set n s')) (ha : b.acros = a.acros) : Closable b := by
  refine ⟨fun l' hl' => ?_, fun l' hl' => h.2 l' (ha ▸ hl')⟩
  rw [hn] at hl'
  cases hl'
  intro x hx
  rcases List.mem_or_eq_of_mem_set hx with hx | rfl
  · exact h.1 l hl x hx
  · rw [hc]; exact h.1 l hl s (List.mem_of_getElem? hs)

theorem Closable.chk {a : Gx} (h : Closable a) (ms : List Mode) : Closable (a.chk ms).1 := by
  rcases chk_cases a ms with ⟨_, hc⟩ | ⟨_, hc⟩
  · rw [hc]; exact h
  · rw [hc]; exact h.same rfl rfl

theorem checkAcros_short : ∀ (vs : List SVal) {l l' : List Acr}, checkAcros l vs = .ok l' → (∀ a ∈ l, a.name.length ≤ 255 ∧ a.text.length ≤ 255) →
    ∀ a ∈ l', a.name.length ≤ 255 ∧ a.text.length ≤ 255
  | [], l, l', h, hl => by cases h; exact hl
  | .code _ :: vs, l, l', h, hl => checkAcros_short vs (by unfold checkAcros at h; exact h) hl
  | .num d :: vs, l, l', h, hl => by
    unfold checkAcros at h
    split at h
    · obtain ⟨n, _, h⟩ := Res.bind_eq_ok.mp h
      refine checkAcros_short vs h ?_
      unfold acrCheck
      split
      · exact hl
      · intro a ha
        rcases List.mem_append.mp ha with ha | ha
        · exact hl a ha
        · cases List.mem_singleton.mp ha
          exact ⟨by simp [Acr.mk'], by simp only [Acr.mk', makeGood_length]; simp⟩
    · exact checkAcros_short vs h hl

theorem noteElem_comments {k : List Int} {v : List Dbl} {s s' : Sym} (h : noteElem k v s = .ok s') : s'.comments = s.comments := by
  unfold noteElem at h
  split at h
  · obtain ⟨x, _, h⟩ := Res.bind_eq_ok.mp h
    dsimp only at h
    split at h
    · obtain ⟨b, _, h⟩ := Res.bind_eq_ok.mp h
      cases h
      dsimp only
      split <;> rfl
    · cases h
      split <;> rfl
  · cases h; rfl

theorem doWrite_closable {g g' : Gx} {k : List Int} {v : List Dbl} {b : Bool} (h : doWrite g k v = .ok (g', b)) (hg : Closable g) : Closable g' := by
  obtain ⟨_, _, _, syms, bad, _, _, hh⟩ := doWrite_cases h
  rcases hh with ⟨_, rfl, rfl⟩ | ⟨_, o, _, ⟨_, rfl, rfl⟩ | ⟨_, rfl, rfl⟩ | ⟨bs, l, _, ha⟩⟩
  · obtain ⟨l, hl⟩ := addErrDom_same (g.raise Err.domainViolation) (List.zipWith (fun b k => if b then -k else k) bad k) v
    rw [hl]; exact hg.same rfl rfl
  · obtain ⟨l, hl⟩ := addErr_same (g.raise Err.dataDuplicate) k v
    rw [hl]; exact hg.same rfl rfl
  · obtain ⟨l, hl⟩ := addErr_same (g.raise Err.rawNotSorted) k v
    rw [hl]; exact hg.same rfl rfl
  · obtain ⟨_, _, acros, acros', n, syms, s, s', e1, e2, e3, e4, e5, e6, rfl⟩ := acceptRec_cases ha
    have hb := hg.set (b := { g with names := some (syms.set n s') }) e4 e5 (noteElem_comments e6) rfl rfl
    refine ⟨hb.1, fun l hl => ?_⟩
    cases hl
    exact checkAcros_short _ e2 (hg.2 _ e1)

theorem doWrites_closable : ∀ (rs : List (LItem (List Dbl))) {g g' : Gx}, doWrites g rs = .ok g' → Closable g → Closable g'
  | [], g, g', h, hg => by cases h; exact hg
  | r :: rs, g, g', h, hg => by
    unfold doWrites at h
    obtain ⟨⟨g1, b⟩, h1, h⟩ := Res.bind_eq_ok.mp h
    exact doWrites_closable rs h (doWrite_closable h1 hg)

theorem modCur_closable {g g' : Gx} {f : Sym → Sym} (h : g.modCur f = .ok g') (hf : ∀ s, (f s).comments = s.comments) (hg : Closable g) : Closable g' := by
  unfold Gx.modCur at h
  split at h
  · rename_i n l _ hl
    split at h
    · cases h
      refine ⟨fun l' hl' => ?_, hg.2⟩
      cases hl'
      intro x hx
      obtain ⟨i, hi⟩ := List.mem_iff_getElem?.mp hx
      rw [List.getElem?_modify] at hi
      obtain ⟨y, hy, rfl⟩ := Option.map_eq_some_iff.mp hi
      have := hg.1 l hl y (List.mem_of_getElem? hy)
      split
      · rw [hf]; exact this
      · exact this
    · cases h
  · cases h

theorem finishBlock_closable {z : Cz} {g g' : Gx} (h : finishBlock z g = .ok g') (hg : Closable g) : Closable g' := by
  unfold finishBlock at h
  obtain ⟨s, _, h⟩ := Res.bind_eq_ok.mp h
  split at h
  · cases h
  obtain ⟨g5, h5, h⟩ := Res.bind_eq_ok.mp h
  cases h
  exact (modCur_closable h5 (fun _ => rfl) hg).same rfl rfl

theorem initDoWrite_closable {g g' : Gx} {n : Int} (h : initDoWrite g n = .ok g') (hg : Closable g) : Closable g' := by
  obtain ⟨_, _, _, m, syms, s, _, e1, e2, rfl⟩ := initDoWrite_ok h
  exact hg.set (s' := { s with pos := g.nextWrite }) e1 e2 rfl rfl rfl

theorem dataWriteDone_closable {z : Cz} {g g' : Gx} {b : Bool} (h : dataWriteDone z g = .ok (g', b)) (hg : Closable g) : Closable g' := by
  unfold dataWriteDone at h
  have hk := hg.chk [.wRaw, .wMap, .wStr, .wDomRaw, .wDomMap, .wDomStr]
  generalize g.chk [.wRaw, .wMap, .wStr, .wDomRaw, .wDomMap, .wDomStr] = c at h hk
  obtain ⟨g0, ok⟩ := c
  dsimp only at h hk
  split at h
  · cases h; exact hk
  · split at h
    · obtain ⟨g4, h4, h⟩ := Res.bind_eq_ok.mp h
      cases h
      exact finishBlock_closable h4 hk
    · obtain ⟨s, _, h⟩ := Res.bind_eq_ok.mp h
      obtain ⟨g1, h1, h⟩ := Res.bind_eq_ok.mp h
      obtain ⟨rs, _, h⟩ := Res.bind_eq_ok.mp h
      obtain ⟨g2, h2, h⟩ := Res.bind_eq_ok.mp h
      obtain ⟨g3, h3, h⟩ := Res.bind_eq_ok.mp h
      cases h
      exact finishBlock_closable h3 ((doWrites_closable rs h2 (initDoWrite_closable h1 hk)).same rfl rfl)

theorem isGoodNew_closable {g : Gx} (syms : List Sym) (l : List Acr) (s : Str) (hg : Closable g) : Closable (isGoodNewSymbol g syms l s).1 := by
  unfold isGoodNewSymbol
  split
  · exact hg.same rfl rfl
  · split
    · exact hg.same rfl rfl
    · split
      · exact hg
      · exact hg.same rfl rfl

theorem isGoodNew_names (g : Gx) (syms : List Sym) (l : List Acr) (s : Str) : (isGoodNewSymbol g syms l s).1.names = g.names := by
  unfold isGoodNewSymbol
  split
  · rfl
  · split
    · rfl
    · split <;> rfl

theorem prepareWrite_closable {g g' : Gx} {name text : Str} {dim typ ui : Int} {b : Bool} (h : prepareWrite g name text dim typ ui = .ok (g', b)) (hg : Closable g) :
    Closable g' := by
  unfold prepareWrite at h
  dsimp only at h
  have h0 : Closable { g with cur := .none, errList := none, sort := none } := hg.same rfl rfl
  generalize ({ g with cur := .none, errList := none, sort := none } : Gx) = g0 at h h0
  have hk := h0.chk [.wInit]
  generalize g0.chk [.wInit] = c at h hk
  obtain ⟨g1, ok⟩ := c
  dsimp only at h hk
  split at h
  · cases h; exact hk
  obtain ⟨syms, h1, h⟩ := Res.bind_eq_ok.mp h
  obtain ⟨l, h2, h⟩ := Res.bind_eq_ok.mp h
  have hn := isGoodNew_closable syms l name hk
  have hs := (isGoodNew_names g1 syms l name).trans (need_ok h1)
  generalize isGoodNewSymbol g1 syms l name = c at h hn hs
  obtain ⟨g2, ok2⟩ := c
  dsimp only at h hn hs
  split at h
  · cases h; exact hn
  split at h
  · cases h; exact hn.same rfl rfl
  split at h
  · cases h; exact hn.same rfl rfl
  cases h
  refine ⟨fun l' hl' => ?_, hn.2⟩
  cases hl'
  intro x hx
  rcases List.mem_append.mp hx with hx | hx
  · exact hn.1 _ hs x hx
  · cases List.mem_singleton.mp hx
    intro h; cases h

theorem dataWriteRawStart_closable {g g' : Gx} {name text : Str} {dim typ ui : Int} {b : Bool} (h : dataWriteRawStart g name text dim typ ui = .ok (g', b))
    (hg : Closable g) : Closable g' := by
  unfold dataWriteRawStart at h
  obtain ⟨⟨g1, ok⟩, h1, h⟩ := Res.bind_eq_ok.mp h
  dsimp only at h
  split at h
  · cases h; exact prepareWrite_closable h1 hg
  obtain ⟨g2, h2, h⟩ := Res.bind_eq_ok.mp h
  cases h
  exact (initDoWrite_closable h2 ((prepareWrite_closable h1 hg).same rfl rfl)).same rfl rfl

theorem dataWriteStrStart_closable {g g' : Gx} {name text : Str} {dim typ ui : Int} {b : Bool} (h : dataWriteStrStart g name text dim typ ui = .ok (g', b))
    (hg : Closable g) : Closable g' := by
  unfold dataWriteStrStart at h
  obtain ⟨⟨g1, ok⟩, h1, h⟩ := Res.bind_eq_ok.mp h
  dsimp only at h
  split at h
  · cases h; exact prepareWrite_closable h1 hg
  cases h
  exact (prepareWrite_closable h1 hg).same rfl rfl

theorem dataWriteRaw_closable {g g' : Gx} {k : List Int} {v : List Dbl} {b : Bool} (h : dataWriteRaw g k v = .ok (g', b)) (hg : Closable g) : Closable g' := by
  unfold dataWriteRaw at h
  dsimp only at h
  have h0 : Closable (if g.mode = .wDomRaw then { g with mode := .wRaw } else g) := by
    split
    · exact hg.same rfl rfl
    · exact hg
  generalize (if g.mode = .wDomRaw then { g with mode := .wRaw } else g) = g0 at h h0
  have hk := h0.chk [.wRaw]
  generalize g0.chk [.wRaw] = c at h hk
  obtain ⟨g1, ok⟩ := c
  dsimp only at h hk
  split at h
  · cases h; exact hk
  · exact doWrite_closable h hk

theorem dataWriteStr_closable {g g' : Gx} {k : List Str} {v : List Dbl} {b : Bool} (h : dataWriteStr g k v = .ok (g', b)) (hg : Closable g) : Closable g' := by
  unfold dataWriteStr at h
  dsimp only at h
  have h0 : Closable (if g.mode = .wDomStr then { g with mode := .wStr } else g) := by
    split
    · exact hg.same rfl rfl
    · exact hg
  generalize (if g.mode = .wDomStr then { g with mode := .wStr } else g) = g0 at h h0
  have hk := h0.chk [.wStr]
  generalize g0.chk [.wStr] = c at h hk
  obtain ⟨g1, ok⟩ := c
  dsimp only at h hk
  split at h
  · cases h; exact hk
  split at h
  · cases h
  obtain ⟨u, _, h⟩ := Res.bind_eq_ok.mp h
  obtain ⟨⟨u', ps, ok'⟩, _, h⟩ := Res.bind_eq_ok.mp h
  dsimp only at h
  split at h
  · cases h; exact hk.same rfl rfl
  obtain ⟨g2, h2, h⟩ := Res.bind_eq_ok.mp h
  cases h
  unfold sortAdd at h2
  obtain ⟨s, _, h2⟩ := Res.bind_eq_ok.mp h2
  split at h2
  · cases h2
  obtain ⟨s', _, h2⟩ := Res.bind_eq_ok.mp h2
  cases h2
  exact hk.same rfl rfl

theorem addSetText_closable {g : Gx} (t : Str) (hg : Closable g) : Closable (addSetText g t).1 := by
  unfold addSetText
  split
  · exact hg
  · dsimp only
    split
    · exact hg
    · exact hg.same rfl rfl

theorem regStart_closable {g : Gx} (hg : Closable g) : Closable (uelRegisterStrStart g).1 := by
  unfold uelRegisterStrStart uelRegisterStart
  have hk := hg.chk [.rInit, .wInit]
  generalize g.chk [.rInit, .wInit] = c at hk
  obtain ⟨g1, ok⟩ := c
  dsimp only at hk ⊢
  split
  · exact hk.same rfl rfl
  · exact hk

theorem regDone_closable {g : Gx} (hg : Closable g) : Closable (uelRegisterDone g).1 := by
  unfold uelRegisterDone
  have hk := hg.chk [.rawElem, .mapElem, .strElem]
  generalize g.chk [.rawElem, .mapElem, .strElem] = c at hk
  obtain ⟨g1, ok⟩ := c
  dsimp only at hk ⊢
  split
  · exact hk.same rfl rfl
  · exact hk

theorem regStr_closable {g g' : Gx} {s : Str} {r : Bool × Int} (h : uelRegisterStr g s = .ok (g', r)) (hg : Closable g) : Closable g' := by
  unfold uelRegisterStr at h
  have hk := hg.chk [.strElem]
  generalize g.chk [.strElem] = c at h hk
  obtain ⟨g1, ok⟩ := c
  dsimp only at h hk
  split at h
  · cases h; exact hk
  obtain ⟨t, _, h⟩ := Res.bind_eq_ok.mp h
  split at h
  · cases h; exact hk.same rfl rfl
  obtain ⟨u, _, h⟩ := Res.bind_eq_ok.mp h
  obtain ⟨⟨u', n⟩, _, h⟩ := Res.bind_eq_ok.mp h
  cases h
  exact hk.same rfl rfl

theorem addUEL_closable (g : Gx) (s : Str) (hg : Closable g) : (addUEL g s).All fun x => Closable x.1 := by
  unfold addUEL
  refine Res.All_of fun x h => ?_
  obtain ⟨⟨g1, ok, n⟩, h1, h⟩ := Res.bind_eq_ok.mp h
  dsimp only at h
  split at h
  · cases h; exact regStr_closable h1 hg
  · cases h

theorem addUELs_closable : ∀ (ss : List Str) (g : Gx), Closable g → (addUELs g ss).All fun x => Closable x.1
  | [], _, hg => hg
  | s :: ss, g, hg => by
    unfold addUELs
    refine Res.All.bind (addUEL_closable g s hg) ?_
    rintro ⟨g1, n⟩ h1
    refine Res.All.bind (addUELs_closable ss g1 h1) ?_
    rintro ⟨g2, ns⟩ h2
    exact h2

theorem openWrite_closable {e : Env} {g : Gx} {r : Bool × Int} {p : Str} {c : Int} (h : openWriteEx e Gx.new false 0 p c = .ok (g, r)) : Closable g := by
  unfold openWriteEx at h
  rw [if_neg (by decide), if_neg (by decide), if_neg (by decide)] at h
  obtain ⟨b, _, h⟩ := Res.bind_eq_ok.mp h
  cases h
  refine ⟨fun l hl => ?_, fun l hl => ?_⟩
  · cases hl; intro s hs; cases hs
  · cases hl; intro s hs; cases hs

/-! ### the program -/

theorem getInfo_short {g : Gx} {n : Int} {nm tx : Str} {ix : Int} (h : acronymGetInfo g n = .ok (some (nm, tx, ix))) : nm.length ≤ 255 ∧ tx.length ≤ 255 := by
  unfold acronymGetInfo at h
  obtain ⟨l, _, h⟩ := Res.bind_eq_ok.mp h
  split at h
  · cases h
  obtain ⟨a, _, h⟩ := Res.bind_eq_ok.mp h
  obtain ⟨s, h1, h⟩ := Res.bind_eq_ok.mp h
  obtain ⟨t, h2, h⟩ := Res.bind_eq_ok.mp h
  cases h
  unfold fits at h1 h2
  split at h1
  · cases h1
    split at h2
    · cases h2
      simp only [ssSize] at *
      omega
    · cases h2
  · cases h1

theorem acronymAdd_closable {g g' : Gx} {nm tx : Str} {i r : Int} (h : acronymAdd g nm tx i = .ok (g', r)) (hs : nm.length ≤ 255 ∧ tx.length ≤ 255) (hg : Closable g) :
    Closable g' := by
  unfold acronymAdd at h
  obtain ⟨l, h1, h⟩ := Res.bind_eq_ok.mp h
  split at h
  · cases h; exact hg
  · cases h; exact hg.same rfl rfl
  · cases h
    refine ⟨hg.1, fun l' hl' => ?_⟩
    cases hl'
    intro a ha
    rcases List.mem_append.mp ha with ha | ha
    · exact hg.2 _ (need_ok h1) a ha
    · cases List.mem_singleton.mp ha
      refine ⟨hs.1, ?_⟩
      simp only [Acr.mk', makeGood_length]
      exact hs.2

theorem keepLoop_closable (next : Int) (g : Gx) : ∀ (ns : List Int) (m : Gx), Closable m → (keepLoop next g m ns).All Closable
  | [], _, hm => hm
  | n :: ns, m, hm => by
    unfold keepLoop
    refine Res.All.bind' fun a _ => ?_
    obtain ⟨x, new, y⟩ := a
    dsimp only
    split
    · exact keepLoop_closable next g ns m hm
    refine Res.All.bind' fun a h1 => ?_
    refine Res.All.bind' fun b h2 => ?_
    obtain ⟨nm, tx, ix⟩ := b
    have h2 := need_ok h2
    subst h2
    dsimp only
    split
    · trivial
    refine Res.All.bind' fun c h3 => ?_
    obtain ⟨m1, k⟩ := c
    exact keepLoop_closable next g ns m1 (acronymAdd_closable h3 (getInfo_short h1) hm)

theorem keep_closable (s : MState) (g : Gx) (hs : Closable s.out) : (keepAcronyms s g).All fun x => Closable x.out := by
  unfold keepAcronyms
  dsimp only
  split
  · exact hs
  · refine Res.All.bind (keepLoop_closable s.nextAcro g _ s.out hs) ?_
    intro m hm
    exact hm

theorem share_closable (s : MState) (g : Gx) (hs : Closable s.out) : (shareAcronyms s g).All fun x => Closable x.1.out := by
  unfold shareAcronyms
  split
  · exact hs
  · refine Res.All.bind (Q := fun x : MState => Closable x.out) ?_ ?_
    · split
      · refine Res.All.bind' fun a _ => ?_
        refine Res.All.bind' fun b _ => ?_
        exact hs
      · exact hs
    · intro x hx
      dsimp only
      exact Res.All.bind' fun a _ => hx

theorem takeRec_closable (g : Gx) (y : MSym) (typ : Nat) (last : Option Nat) (m : Gx) (pool : List Str) (b : Bufs) (r : RecOut Str) (hm : Closable m) :
    (takeRec g y typ last m pool b r).All fun x => Closable x.1 := by
  unfold takeRec
  dsimp only
  refine Res.All.bind (Q := fun x : Gx × Bufs => Closable x.1) ?_ ?_
  · split
    · exact hm
    · unfold setIndex
      split
      · trivial
      split
      · trivial
      refine Res.All.bind (addUELs_closable _ m hm) ?_
      rintro ⟨m1, ns⟩ h1
      exact h1
  · rintro ⟨m1, b1⟩ h1
    dsimp only
    refine Res.All.bind' fun a _ => ?_
    refine Res.All.bind' fun a _ => ?_
    exact h1

theorem takeRecs_closable (y : MSym) (typ : Nat) (last : Option Nat) : ∀ (n : Nat) (g m : Gx) (pool : List Str) (b : Bufs), Closable m →
    (takeRecs y typ last n g m pool b).All fun x => Closable x.2.1
  | 0, _, _, _, _, _ => trivial
  | n + 1, g, m, pool, b, hm => by
    unfold takeRecs
    refine Res.All.bind' fun a _ => ?_
    obtain ⟨g1, o⟩ := a
    cases o with
    | none => exact Res.All.bind' fun a _ => hm
    | some r =>
      refine Res.All.bind (takeRec_closable g1 y typ last m pool b r hm) ?_
      rintro ⟨m1, pool1, b1, x⟩ h1
      refine Res.All.bind (takeRecs_closable y typ last n g1 m1 pool1 b1 h1) ?_
      rintro ⟨g2, m2, pool2, b2, xs⟩ h2
      exact h2

theorem collect_closable (z : Cz) (id : Str) (s : MState) (g : Gx) (b : Bufs) (nr : Int) (n : Nat) (y : MSym) (typ : Nat) (last : Option Nat) (hs : Closable s.out) :
    (Merge.collect z id s g b nr n y typ last).All fun x => Closable x.1.out := by
  unfold Merge.collect
  refine Res.All.bind (addUEL_closable s.out id hs) ?_
  rintro ⟨m, f⟩ h1
  dsimp only
  refine Res.All.bind' fun a _ => ?_
  refine Res.All.bind (takeRecs_closable y typ last _ _ m s.pool _ h1) ?_
  rintro ⟨g2, m2, pool2, b2, xs⟩ h2
  exact h2

theorem list_out (o : Merge.Opt) (s : MState) (g : Gx) (nr : Int) : (listSym o s g nr).All fun x => x.1.out = s.out := by
  unfold listSym
  dsimp only
  split
  · rfl
  · generalize (if (symbolInfo g nr).typ = dtAlias then { symbolInfo g nr with typ := dtSet } else symbolInfo g nr) = a
    generalize (if (symbolInfo g nr).typ = dtAlias then { symbolInfoX g nr with userInfo := 0 } else symbolInfoX g nr) = x
    cases symIdx s.syms a.name with
    | some n => rfl
    | none =>
      dsimp only
      by_cases h : o.takes a.name = false
      · rw [if_pos h]; rfl
      · rw [if_neg h]; exact Res.All.bind' fun _ _ => rfl

theorem addSym_closable (o : Merge.Opt) (z : Cz) (p : Pass) (id : Str) (s : MState) (g : Gx) (b : Bufs) (nr : Int) (hs : Closable s.out) :
    (Merge.addSym o z p id s g b nr).All fun x => Closable x.1.out := by
  unfold Merge.addSym
  refine Res.All.bind (list_out o s g nr) ?_
  rintro ⟨s1, l⟩ h1
  dsimp only at h1 ⊢
  have h1 : Closable s1.out := h1 ▸ hs
  cases l with
  | none => exact h1
  | some l =>
    obtain ⟨n, a, x⟩ := l
    dsimp only
    refine Res.All.bind' fun y _ => ?_
    split
    · exact h1
    · split
      · exact h1
      · split
        · exact h1
        · split
          · exact h1
          · exact collect_closable _ _ _ _ _ _ _ _ _ _ h1

theorem addSyms_closable (o : Merge.Opt) (z : Cz) (p : Pass) (id : Str) : ∀ (ns : List Int) (s : MState) (g : Gx) (b : Bufs), Closable s.out →
    (addSyms o z p id s g b ns).All fun x => Closable x.1.out
  | [], _, _, _, hs => hs
  | n :: ns, s, g, b, hs => by
    unfold addSyms
    refine Res.All.bind (addSym_closable o z p id s g b n hs) ?_
    rintro ⟨s1, g1, b1⟩ h1
    exact addSyms_closable o z p id ns s1 g1 b1 h1

theorem addFile_closable (o : Merge.Opt) (z : Cz) (p : Pass) (s : MState) (f : Merge.InFile) (hs : Closable s.out) : (addFile o z p s f).All fun x => Closable x.out := by
  unfold addFile
  refine Res.All.bind' fun a _ => ?_
  obtain ⟨g, b, err⟩ := a
  dsimp only
  split
  · exact hs
  · refine Res.All.bind (share_closable { s with read := s.read + 1 } g hs) ?_
    rintro ⟨s1, g1⟩ h1
    dsimp only at h1 ⊢
    refine Res.All.bind (addSyms_closable o z p f.id _ _ g1 {} (regStart_closable h1)) ?_
    rintro ⟨s2, g2, b2⟩ h2
    dsimp only at h2 ⊢
    refine Res.All.bind (keep_closable s2 g2 h2) ?_
    intro s3 h3
    refine Res.All.bind' fun _ _ => ?_
    exact regDone_closable h3

theorem addFiles_closable (o : Merge.Opt) (z : Cz) (p : Pass) : ∀ (fs : List Merge.InFile) (s : MState), Closable s.out → (addFiles o z p s fs).All fun x => Closable x.out
  | [], _, hs => hs
  | f :: fs, s, hs => by
    unfold addFiles
    refine Res.All.bind (addFile_closable o z p s f hs) ?_
    intro s1 h1
    exact addFiles_closable o z p fs s1 h1

theorem writeRec_closable (pool : List Str) (typ : Nat) (m : Gx) (r : MRec) (hm : Closable m) : (writeRec pool typ m r).All Closable := by
  unfold writeRec stateOf
  refine Res.All.bind' fun v _ => ?_
  split
  · refine Res.All.bind' fun n _ => ?_
    refine Res.All.bind' fun t _ => ?_
    dsimp only
    refine Res.All.bind' fun a h => ?_
    obtain ⟨g, b⟩ := a
    exact dataWriteRaw_closable h (addSetText_closable t hm)
  · refine Res.All.bind' fun a h => ?_
    obtain ⟨g, b⟩ := a
    exact dataWriteRaw_closable h hm

theorem writeRecs_closable (pool : List Str) (typ : Nat) : ∀ (rs : List MRec) (m : Gx), Closable m → (Merge.writeRecs pool typ m rs).All Closable
  | [], _, hm => hm
  | r :: rs, m, hm => by
    unfold Merge.writeRecs
    refine Res.All.bind (writeRec_closable pool typ m r hm) ?_
    intro m1 h1
    exact writeRecs_closable pool typ rs m1 h1

theorem writeSym_closable (o : Merge.Opt) (z : Cz) (srt : List MRec → List MRec) (p : Pass) (s : MState) (n : Nat) (hs : Closable s.out) :
    (writeSym o z srt p s n).All fun x => Closable x.out := by
  unfold writeSym
  refine Res.All.bind' fun y _ => ?_
  split
  · exact hs
  · split
    · exact hs
    · refine Res.All.bind' fun a h1 => ?_
      obtain ⟨m, b⟩ := a
      dsimp only
      refine Res.All.bind (writeRecs_closable s.pool y.typ _ m (dataWriteRawStart_closable h1 hs)) ?_
      intro m1 h2
      refine Res.All.bind' fun a h3 => ?_
      obtain ⟨m2, b2⟩ := a
      exact dataWriteDone_closable h3 h2

theorem writeSyms_closable (o : Merge.Opt) (z : Cz) (srt : List MRec → List MRec) (p : Pass) : ∀ (ns : List Nat) (s : MState), Closable s.out →
    (writeSyms o z srt p s ns).All fun x => Closable x.out
  | [], _, hs => hs
  | n :: ns, s, hs => by
    unfold writeSyms
    refine Res.All.bind (writeSym_closable o z srt p s n hs) ?_
    intro s1 h1
    exact writeSyms_closable o z srt p ns s1 h1

theorem bigFile_closable (z : Cz) (n : Nat) (s : MState) (b : Bufs) (f : Merge.InFile) (hs : Closable s.out) :
    (bigFile z n s b f).All fun x => ∀ y, x = some y → Closable y.1.out := by
  unfold bigFile
  refine Res.All.bind' fun a _ => ?_
  dsimp only
  split
  · intro y hy; cases hy
  · refine Res.All.bind' fun y _ => ?_
    refine Res.All.bind (Q := fun x : MState × Gx × Bufs => Closable x.1.out) ?_ ?_
    · split
      · exact collect_closable _ _ _ _ _ _ _ _ _ _ hs
      · exact hs
    · rintro ⟨s1, g1, b1⟩ h1
      dsimp only at h1 ⊢
      refine Res.All.bind (keep_closable s1 g1 h1) ?_
      intro s2 h2
      refine Res.All.bind' fun _ _ => ?_
      intro y hy
      injection hy with hy
      subst hy
      exact h2

theorem bigFiles_closable (z : Cz) (n : Nat) : ∀ (fs : List Merge.InFile) (s : MState) (b : Bufs), Closable s.out → (bigFiles z n s b fs).All fun x => Closable x.1.out
  | [], _, _, hs => hs
  | f :: fs, s, b, hs => by
    unfold bigFiles
    refine Res.All.bind (bigFile_closable z n s b f hs) ?_
    intro r hr
    cases r with
    | none => exact hs
    | some y =>
      obtain ⟨s1, b1⟩ := y
      exact bigFiles_closable z n fs s1 b1 (hr _ rfl)

theorem collectBig_closable (z : Cz) (fs : List Merge.InFile) (s : MState) (n : Nat) (hs : Closable s.out) : (collectBig z fs s n).All fun x => Closable x.1.out := by
  unfold collectBig
  refine Res.All.bind' fun y _ => ?_
  split
  · exact hs
  · refine Res.All.bind (bigFiles_closable z n fs { s with out := (uelRegisterStrStart s.out).1 } {} (regStart_closable hs)) ?_
    rintro ⟨s1, ok⟩ h1
    dsimp only at h1 ⊢
    split
    · exact h1
    · exact regDone_closable h1

theorem bigSyms_closable (o : Merge.Opt) (z : Cz) (srt : List MRec → List MRec) (fs : List Merge.InFile) : ∀ (ns : List Nat) (s : MState), Closable s.out →
    (bigSyms o z srt fs s ns).All fun x => Closable x.out
  | [], _, hs => hs
  | n :: ns, s, hs => by
    unfold bigSyms
    refine Res.All.bind (collectBig_closable z fs s n hs) ?_
    rintro ⟨s1, ok⟩ h1
    refine Res.All.bind (Q := fun x : MState => Closable x.out) ?_ ?_
    · split
      · exact writeSym_closable _ _ _ _ _ _ h1
      · exact h1
    · intro s2 h2
      exact bigSyms_closable o z srt fs ns s2 h2

theorem writeNames_closable : ∀ (fs : List Merge.InFile) (m : Gx), Closable m → (writeNames m fs).All Closable
  | [], _, hm => hm
  | f :: fs, m, hm => by
    unfold writeNames
    dsimp only
    refine Res.All.bind' fun a h1 => ?_
    obtain ⟨m1, b⟩ := a
    exact writeNames_closable fs m1 (dataWriteStr_closable h1 (addSetText_closable f.info hm))

theorem writeNameList_closable (z : Cz) (m : Gx) (fs : List Merge.InFile) (hm : Closable m) : (writeNameList z m fs).All Closable := by
  unfold writeNameList
  refine Res.All.bind' fun nm _ => ?_
  refine Res.All.bind' fun a h1 => ?_
  obtain ⟨m1, b⟩ := a
  dsimp only
  refine Res.All.bind (writeNames_closable fs m1 (dataWriteStrStart_closable h1 hm)) ?_
  intro m2 h2
  refine Res.All.bind' fun a h3 => ?_
  obtain ⟨m3, b⟩ := a
  exact dataWriteDone_closable h3 h2

/-- For all input files and options: the comments and acronyms of the output file are short enough. -/
theorem mergeTo_closable (o : Merge.Opt) (e : Env) (z : Cz) (srt : List MRec → List MRec) (fs : List Merge.InFile) : (mergeTo o e z srt fs).All fun x => Closable x.out := by
  unfold mergeTo
  refine Res.All.bind' fun a h0 => ?_
  obtain ⟨m, r⟩ := a
  have hm : Closable m := openWrite_closable h0
  have h1 : Closable { m with storeDom := false } := hm.same rfl rfl
  dsimp only
  refine Res.All.bind (Q := fun x : MState => Closable x.out) ?_ ?_
  · split
    · refine Res.All.bind (addFiles_closable o z .doAll fs _ h1) ?_
      intro s hs
      exact writeSyms_closable _ _ _ _ _ _ hs
    · refine Res.All.bind (addFiles_closable o z .scan fs _ h1) ?_
      intro s hs
      refine Res.All.bind (addFiles_closable o z .small fs s hs) ?_
      intro s hs
      refine Res.All.bind (writeSyms_closable o z srt .small _ s hs) ?_
      intro s hs
      exact bigSyms_closable _ _ _ _ _ _ hs
  · intro s hs
    refine Res.All.bind (writeNameList_closable z s.out fs hs) ?_
    intro m hm
    exact hm

/-- closing the output file, once the program has come that far -/
theorem merge_closes {o : Merge.Opt} {e : Env} {z : Cz} (hz : z.Good) {srt : List MRec → List MRec} {fs : List Merge.InFile} {s : MState} (h : mergeTo o e z srt fs = .ok s)
    (ha : After e z s.out) (hm : s.out.mode = .wInit) : ∃ f, merge o e z srt fs = .ok (f, s.errs) := by
  obtain ⟨g, r, hc⟩ := (C87_close hz ha hm).mpr ((mergeTo_closable o e z srt fs).of_ok h)
  refine ⟨g.file, ?_⟩
  unfold merge
  rw [h, Res.bind_ok, hc]
  rfl

end Gdx.Props
