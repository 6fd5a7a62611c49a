import Verif.Proofs.Twin
import Verif.Proofs.Own
import Verif.Proofs.Arrive
import Verif.Props.Reopen
import Verif.Props.RawSession

/-!
C45: symbols appended to a file (gdxOpenAppend) give the same file content as symbols written before gdxClose.
-/

namespace Gdx

/-! ### the file -/

/-- The files `x` and `y` agree below `n`, apart from the index at `M`; if `c`, then `y` ends at `n`. -/
structure Alike (M : Nat) (c : Prop) (x y : List UInt8) (n : Int) : Prop where
  idx : (M : Int) + 52 ≤ n
  left : n ≤ x.length
  right : n ≤ y.length
  fin : c → (y.length : Int) = n
  get : ∀ i : Nat, (i : Int) < n → (i < M ∨ M + 52 ≤ i) → x[i]? = y[i]?

theorem Alike.puts (M : Nat) (c : Prop) : Puts (Alike M c) := by
  intro x y n bs hn h
  have h1 := h.idx
  have h2 := h.left
  have h3 := h.right
  by_cases hb : bs = []
  · subst hb
    rw [splice_nil, splice_nil]
    simpa using h
  have e : ∀ l : List UInt8, ((splice l n.toNat bs).length : Int) = max (l.length : Int) (n + bs.length) := by
    intro l
    rw [splice_length, if_neg hb]
    push_cast
    rw [Int.toNat_of_nonneg hn]
  refine ⟨by omega, by rw [e]; omega, by rw [e]; omega, fun hc => ?_, fun i hi hm => ?_⟩
  · have := h.fin hc
    rw [e]
    omega
  · rw [splice_getElem?, splice_getElem?, if_neg hb, if_neg hb]
    by_cases hin : i < n.toNat
    · rw [if_pos hin, if_pos hin, if_pos (by omega), if_pos (by omega)]
      exact h.get i (by omega) hm
    · rw [if_neg hin, if_neg hin, if_pos (by omega), if_pos (by omega)]

/-- the files agree in their first `n` bytes; if `c`, then `y` ends there -/
def Begins (c : Prop) (x y : List UInt8) (n : Nat) : Prop := n ≤ x.length ∧ n ≤ y.length ∧ x.take n = y.take n ∧ (c → y.length = n)

theorem Begins.prefix {c : Prop} {x y : List UInt8} {n : Nat} (hc : c) (h : Begins c x y n) : y <+: x := by
  obtain ⟨h1, h2, h3, h4⟩ := h
  have := h4 hc
  rw [List.prefix_iff_eq_take, this, h3, ← this, List.take_length]

/-- the tables and the index are written -/
theorem Alike.save {M : Nat} {c : Prop} {x y : List UInt8} {n : Int} (h : Alike M c x y n) (bs idx : List UInt8) (hi : idx.length = 52) :
    Begins c (splice (splice x n.toNat bs) M idx) (splice (splice y n.toNat bs) M idx) (n.toNat + bs.length) := by
  have hn : 0 ≤ n := by have := h.idx; omega
  have k := Alike.puts M c x y n bs hn h
  generalize splice x n.toNat bs = x1 at k ⊢
  generalize splice y n.toNat bs = y1 at k ⊢
  have h1 := k.idx
  have h2 := k.left
  have h3 := k.right
  have hne : idx ≠ [] := by intro e; rw [e] at hi; cases hi
  have e : ∀ l : List UInt8, (n + (bs.length : Int) ≤ l.length) → (splice l M idx).length = l.length := by
    intro l hl
    rw [splice_length, if_neg hne, hi]
    omega
  refine ⟨by rw [e _ h2]; omega, by rw [e _ h3]; omega, ?_, fun hc => by rw [e _ h3]; have := k.fin hc; omega⟩
  apply List.ext_getElem?
  intro i
  rw [List.getElem?_take, List.getElem?_take]
  by_cases hlt : i < n.toNat + bs.length
  · rw [if_pos hlt, if_pos hlt, splice_getElem?, splice_getElem?, if_neg hne, if_neg hne, hi]
    by_cases him : i < M
    · rw [if_pos him, if_pos him, if_pos (by omega), if_pos (by omega)]
      exact k.get i (by omega) (Or.inl him)
    · rw [if_neg him, if_neg him]
      by_cases him2 : i < M + 52
      · rw [if_pos him2, if_pos him2]
      · rw [if_neg him2, if_neg him2]
        exact k.get i (by omega) (Or.inr (by omega))
  · rw [if_neg hlt, if_neg hlt]

/-! ### closing -/

variable {p q r : Prop} {F : List UInt8 → List UInt8 → Int → Prop} {a b : Gx}

theorem saveAll_rel {α : Type} {R : α → α → Prop} {f : α → Res (List UInt8)} (hf : ∀ x y, R x y → f x = f y) {l m : List α} (h : List.Forall₂ R l m) :
    saveAll f l = saveAll f m := by
  induction h with
  | nil => rfl
  | cons hxy _ ih => rw [saveAll, saveAll, hf _ _ hxy, ih]

theorem wrSym_rel {s t : Sym} (h : SymRel q s t) : wrSym s = wrSym t := by
  have := h.rest
  cases s; cases t
  simp only [Sym.mk.injEq] at this
  obtain ⟨rfl, rfl, rfl, rfl, rfl, rfl, rfl, rfl, rfl, rfl, rfl, rfl, rfl, -⟩ := this
  rfl

theorem wrRelaxed_rel {l m : List Sym} (h : SymsRel q l m) : ∀ n, wrRelaxed n l = wrRelaxed n m := by
  induction h with
  | nil => intro n; rfl
  | @cons s t l m hst _ ih =>
    intro n
    have : s.domStrs = t.domStrs := by have := congrArg Sym.domStrs hst.rest; exact this
    rw [wrRelaxed, wrRelaxed, ih, this]

theorem acrSave_rel {l m : List Acr} (h : AcrsRel l m) : acrSave l = acrSave m := by
  have e : ∀ x y : Acr, AcrRel x y → x.save = y.save := by
    intro x y h
    cases x; cases y
    simp only [AcrRel, Acr.noRead, Acr.mk.injEq] at h
    obtain ⟨rfl, rfl, rfl, -, -⟩ := h
    rfl
  unfold acrSave
  rw [saveAll_rel e h, h.length_eq]

theorem ResRel.eq {α : Type} {x y : Res α} (h : ResRel Eq x y) : x = y := by
  cases x <;> cases y <;> first | exact h.elim | rfl | exact congrArg Res.ok h

theorem wrTables_rel (z : Cz) (h : Half p q r F a b) : wrTables z a = wrTables z b := by
  have hc : b.comprOut = a.comprOut := by have := congrArg Gx.comprOut h.sh; exact this.symm
  have ht : wrTexts a.texts = wrTexts b.texts := by
    unfold wrTexts
    rcases h.texts.some_of with ⟨e1, e2⟩ | ⟨l, m, e1, e2, hlm⟩
    · rw [e1, e2]
    · rw [e1, e2]; simp only [Option.getD_some]; rw [hlm]
  refine ResRel.eq ?_
  unfold wrTables
  refine h.names.need.bind fun l m hlm => ?_
  have hs : wrSymbs l = wrSymbs m := by
    unfold wrSymbs
    rw [saveAll_rel (R := SymRel q) (f := wrSym) (fun x y h => wrSym_rel h) hlm, hlm.length_eq]
  rw [hs, ht, h.domStrs, hc]
  refine .same fun _ => .same fun _ => ?_
  refine h.uel.need.bind fun u v huv => ?_
  have hu : wrUels u = wrUels v := by unfold wrUels; rw [huv.strs]
  rw [hu]
  refine .same fun _ => ?_
  refine h.acros.need.bind fun c d hcd => ?_
  have hcd' : wrAcros c = wrAcros d := by unfold wrAcros; rw [acrSave_rel hcd]
  rw [hcd']
  refine .same fun _ => .same fun ds => ?_
  have hd : wrDoms ds l = wrDoms ds m := by unfold wrDoms; rw [wrRelaxed_rel hlm]
  rw [hd]
  exact .same fun _ => rfl

theorem saveFile_rel {G : List UInt8 → List UInt8 → Prop} (z : Cz) {M : Nat}
    (hG : ∀ x y n t, F x y n → G (splice (splice x n.toNat (Tables.all t)) M (indexBytes n t)) (splice (splice y n.toNat t.all) M (indexBytes n t)))
    (hM : b.majorPos = M) (h : Half p q r F a b) :
    ResRel (fun x y => G x.file y.file ∧ x.opened = y.opened) (saveFile z a) (saveFile z b) := by
  unfold saveFile
  have hMa : a.majorPos = M := by have := congrArg Gx.majorPos h.sh; rw [← hM]; exact this
  have ho : a.opened = b.opened := by have := congrArg Gx.opened h.sh; exact this
  rw [wrTables_rel z h, h.next, hM, hMa]
  by_cases hn : a.nextWrite < 0
  · rw [if_pos hn, if_pos hn]; trivial
  rw [if_neg hn, if_neg hn]
  exact .same fun t => ⟨hG _ _ _ t h.file, ho⟩

theorem saveFile_raised (z : Cz) (g : Gx) : (saveFile z g).All fun x => x.raised = g.raised := by
  unfold saveFile
  split
  · trivial
  · exact .bind' fun t _ => rfl

theorem prim_major {M : Nat} : ∀ a b, Prim .all a b → a.majorPos = M → b.majorPos = M := by
  intro a b h hb
  cases h with
  | ctrl h _ _ => rw [show b.majorPos = a.majorPos from congrArg Core.majorPos h]; exact hb
  | _ => exact hb

/-- what closing makes of two related objects: the same answer; the files are related as `G` says if they were saved -/
theorem close_sim (hF : Puts F) {G : List UInt8 → List UInt8 → Prop} (z : Cz) {M : Nat}
    (hG : ∀ x y n t, F x y n → G (splice (splice x n.toNat (Tables.all t)) M (indexBytes n t)) (splice (splice y n.toNat t.all) M (indexBytes n t)))
    (hA : Aft b) (hM : b.majorPos = M) (hm : b.mode ∈ [Mode.wInit, .wRaw, .wMap, .wStr]) (h : Twin p q r F a b) :
    Sim (fun y => Lost q b.raised y.1) (fun x y => G x.1.file y.1.file ∧ x.2 = y.2) (gdxClose z a) (gdxClose z b) := by
  unfold gdxClose
  have key : ∀ {x y : Gx}, y.majorPos = M → y.mode = .wInit → Half p q r F x y →
      Sim (fun y => Lost q b.raised y.1) (fun x y => G x.1.file y.1.file ∧ x.2 = y.2) (do let g ← saveIf z x; pure (g.freeAll, if g.opened then (0 : Int) else 1))
        (do let g ← saveIf z y; pure (g.freeAll, if g.opened then 0 else 1)) := by
    intro x y hM hm h
    refine ResRel.sim ?_
    have e1 : saveIf z x = saveFile z x := by unfold saveIf; rw [if_pos (h.mode.trans hm)]
    have e2 : saveIf z y = saveFile z y := by unfold saveIf; rw [if_pos hm]
    rw [e1, e2]
    refine (saveFile_rel z hG hM h).bind fun u v huv => ⟨huv.1, ?_⟩
    show (if u.opened then (0 : Int) else 1) = if v.opened then 0 else 1
    rw [huv.2]
  have hma := h.half.mode
  by_cases hw : b.mode = .wRaw ∨ b.mode = .wMap ∨ b.mode = .wStr
  · have e1 : finishWrite z a = stateOf (dataWriteDone z a) := by unfold finishWrite; rw [hma, if_pos hw]; rfl
    have e2 : finishWrite z b = stateOf (dataWriteDone z b) := by unfold finishWrite; rw [if_pos hw]; rfl
    rw [e1, e2]
    have hW : Writing b.mode := by rcases hw with h | h | h <;> rw [h] <;> decide
    intro y hy
    obtain ⟨b1, h1, h2⟩ := Res.bind_eq_ok.mp hy
    have h1' := h1
    obtain ⟨⟨b2, k⟩, h3, h4⟩ := Res.bind_eq_ok.mp h1
    cases h4
    have hmode := (Props.dataWriteDone_mode hW).of_ok h3
    rcases stateOf_sim (dataWriteDone_sim hF z h) b2 h1' with hl | ⟨a1, h5, h6⟩
    · left
      obtain ⟨b3, h7, h8⟩ := Res.bind_eq_ok.mp h2
      cases h8
      have e3 : saveIf z b2 = saveFile z b2 := by unfold saveIf; rw [if_pos hmode]
      rw [e3] at h7
      exact hl.grow (g' := b3.freeAll) (by show _ <+: b3.raised; rw [(saveFile_raised z b2).of_ok h7])
    · rw [h5]
      have hM2 : b2.majorPos = M := (Props.inFile_inv prim_major (fun _ _ _ _ _ h => h) (fun _ h => h) ⟨[]⟩ z (c := .writeDone) trivial rfl hA hM).of_ok h1'
      exact key hM2 hmode h6.half y h2
  · have hi : b.mode = .wInit := by
      simp only [List.mem_cons, List.not_mem_nil, or_false] at hm
      tauto
    have e1 : finishWrite z a = .ok a := by unfold finishWrite; rw [hma, if_neg hw]
    have e2 : finishWrite z b = .ok b := by unfold finishWrite; rw [if_neg hw]
    rw [e1, e2]
    exact key hM hi h.half

/-! ### the point where writing is resumed -/

/-- no user number is registered -/
def NoUserNrs (g : Gx) : Prop := ∀ u, g.uel = some u → u = { Uel.empty with ents := u.strs.map (·, -1) }

/-- no symbol has a bit map for domain checks -/
def NoChecks (g : Gx) : Prop := ∀ l, g.names = some l → ∀ s ∈ l, s.bitmap = none

/-- The object `g` can be closed here, and `g0` can go on for it: no errors are being counted, no special values were chosen,
    all acronyms have names, and `g0` has the same settings for domains. -/
structure Resumes (g g0 : Gx) : Prop where
  mode : g.mode = .wInit
  errs : g.errCnt = 0
  sv : g.sv = SVTab.default
  named : ∀ l, g.acros = some l → ∀ a ∈ l, a.name ≠ [] ∧ a.auto = false
  free : g0.mode = .notOpen
  store : g0.storeDom = g.storeDom
  bogus : g0.allowBogus = g.allowBogus

theorem close_file {z : Cz} {g g' : Gx} {k : Int} (hm : g.mode = .wInit) (h : gdxClose z g = .ok (g', k)) :
    0 ≤ g.nextWrite ∧ ∃ t : Tables, g'.file = splice (splice g.file g.nextWrite.toNat t.all) g.majorPos (indexBytes g.nextWrite t) := by
  unfold gdxClose at h
  have e1 : finishWrite z g = .ok g := by unfold finishWrite; rw [hm, if_neg (by decide)]
  have e2 : saveIf z g = saveFile z g := by unfold saveIf; rw [if_pos hm]
  rw [e1] at h
  simp only [Res.bind_ok] at h
  rw [e2] at h
  obtain ⟨g1, h1, h⟩ := Res.bind_eq_ok.mp h
  cases h
  unfold saveFile at h1
  split at h1
  · cases h1
  rename_i hn
  obtain ⟨t, ht, h1⟩ := Res.bind_eq_ok.mp h1
  cases h1
  exact ⟨by omega, t, rfl⟩

theorem Alike.start {g : Gx} {n : Int} {M : Nat} (hn : (M : Int) + 52 ≤ n) (hl : n ≤ g.file.length) (bs idx : List UInt8) (hi : idx.length = 52) :
    Alike M ((g.file.length : Int) = n) (splice (splice g.file n.toNat bs) M idx) g.file n := by
  have hne : idx ≠ [] := by intro e; rw [e] at hi; cases hi
  have e1 : (splice g.file n.toNat bs).length ≥ g.file.length := by rw [splice_length]; split <;> omega
  have e2 : (splice (splice g.file n.toNat bs) M idx).length ≥ g.file.length := by rw [splice_length]; split <;> omega
  refine ⟨hn, by omega, hl, id, fun i hi1 hi2 => ?_⟩
  rw [splice_getElem?, if_neg hne, hi]
  have e3 : (splice g.file n.toNat bs)[i]? = g.file[i]? := by
    rw [splice_getElem?]
    split
    · rfl
    · rw [if_pos (by omega), if_pos (by omega)]
  rcases hi2 with hi2 | hi2
  · rw [if_pos hi2, if_pos (by omega), e3]
  · rw [if_neg (by omega), if_neg (by omega), e3]

theorem Acr.reopened_rel {x : Acr} (h : x.name ≠ [] ∧ x.auto = false) : AcrRel x.reopened x := by
  cases x
  obtain ⟨h1, h2⟩ := h
  dsimp only at h1 h2
  subst h2
  unfold AcrRel Acr.noRead Acr.reopened Acr.saveName
  dsimp only
  rw [if_neg h1]

/-- what gdxOpenAppend gives is the object that was closed, as far as later calls can see -/
theorem append_twin {z : Cz} (hz : z.Good) {g g' g0 : Gx} {k : Int} (hi : Inv g) (hs : g.stat = .write) (ho : g.opened = true)
    (hr : Resumes g g0) (hlen : g.nextWrite ≤ g.file.length) (hcl : gdxClose z g = .ok (g', k)) (hf : FileFits g)
    (hl : (g'.file.length : Int) ≤ 9223372036854775807) (pr : Str) (hp : p → NoUserNrs g) (hq : q → NoChecks g) (hb : q ∨ g.allowBogus = true) :
    ∃ ga, openAppend z g0 (.content g'.file) pr = .ok (ga, (true, 0)) ∧
      Twin p q False (Alike g.majorPos ((g.file.length : Int) = g.nextWrite)) ga g := by
  obtain ⟨g2, h1, h2, h3⟩ := close_open hz hi hr.mode hs hcl hf hl { g0 with producer2 := pr, appendActive := true } hr.free 0
  refine ⟨{ g2 with mode := .wInit, stat := .write, comprOut := g2.uncompr }, ?_, ?_⟩
  · unfold openAppend
    dsimp only
    rw [h1]
    simp only [Res.bind_ok, Res.pure_eq]
    rw [if_neg (by decide), if_neg (by rw [h2.ver]; decide)]
  obtain ⟨l, hl1, hl2⟩ := h2.names
  obtain ⟨u, hu1, hu2, hu3⟩ := h2.uel
  obtain ⟨t, ht1, ht2⟩ := h2.texts rfl
  obtain ⟨c, ha1, ha2⟩ := h2.acros
  obtain ⟨d, hd1, hd2⟩ := h2.doms
  have hmode := hr.mode
  refine ⟨⟨?_, ?_, ?_, ?_, ?_, ?_, ?_, False.elim⟩, fun h => ?_, fun h => ?_, fun h => ?_, fun h => ?_⟩
  · show Gx.sh _ = Gx.sh _
    simp only [Gx.sh, Gx.mk.injEq]
    simp only [h2.opn, ho, hmode, hs, h2.unc, hd1, hd2, h2.sv.1, hr.sv, h3.storeDom, h3.allowBogus, hr.store, hr.bogus, h2.major, h2.next, h2.err.2.1, hr.errs, and_self]
  · show q ∨ g2.allowBogus = true
    rw [h3.allowBogus]
    show q ∨ g0.allowBogus = true
    rw [hr.bogus]
    exact hb
  · show OptRel (UelRel p) g2.uel g.uel
    rw [hu1, hu2]
    refine ⟨?_, fun h => (hp h u hu1).symm⟩
    show (u.strs.map (·, (-1 : Int))).map Prod.fst = _
    rw [List.map_map]
    exact List.map_id' _
  · show OptRel _ g2.texts g.texts
    rw [ht1, ht2]
    show (t.map fun p => (p.1, (0 : Int))).map Prod.fst = _
    rw [List.map_map]
    rfl
  · show OptRel AcrsRel g2.acros g.acros
    rw [ha1, ha2]
    have := hr.named c ha1
    clear ha1 ha2
    show List.Forall₂ AcrRel (c.map Acr.reopened) c
    induction c with
    | nil => exact .nil
    | cons x c ih => exact .cons (Acr.reopened_rel (this x List.mem_cons_self)) (ih fun a h => this a (List.mem_cons_of_mem _ h))
  · show OptRel (SymsRel q) g2.names g.names
    rw [hl1, hl2]
    have hq' : q → ∀ s ∈ l, s.bitmap = none := fun h => hq h l hl1
    clear hl1 hl2
    show List.Forall₂ (SymRel q) (l.map Sym.reopened) l
    induction l with
    | nil => exact .nil
    | cons x l ih =>
      refine .cons ⟨rfl, ?_⟩ (ih fun h s hs => hq' h s (List.mem_cons_of_mem _ hs))
      by_cases hqq : q
      · exact Or.inr (hq' hqq x List.mem_cons_self).symm
      · exact Or.inl ⟨hqq, rfl⟩
  · show Alike _ _ g2.file g.file g2.nextWrite
    rw [h2.next, h2.file]
    obtain ⟨hn, tb, hfile⟩ := close_file hr.mode hcl
    rw [hfile]
    have := (hi.head hs).next
    exact Alike.start (by omega) hlen _ _ (indexBytes_length _ _)
  · exact absurd h (show Mode.wInit ∉ _ by decide)
  · rcases h with h | h <;> exact absurd h (show Mode.wInit ≠ _ by decide)
  · rcases h with h | h <;> exact absurd h (show Mode.wInit ≠ _ by decide)
  · exact absurd h (show Mode.wInit ∉ _ by decide)

/-! ### the same tables -/

theorem Half.fits (h : Half p q r F a b) (hf : FileFits b) : FileFits a := by
  obtain ⟨h1, h2, h3, h4, h5⟩ := hf
  refine ⟨fun l hl => ?_, fun l hl => ?_, fun u hu => ?_, fun l hl => ?_, fun l hl => ?_⟩
  · rcases h.names.some_of with ⟨e1, _⟩ | ⟨la, lb, e1, e2, hlm⟩
    · rw [e1] at hl; cases hl
    rw [e1] at hl
    cases hl
    obtain ⟨k1, k2⟩ := h1 lb e2
    refine ⟨by rw [hlm.length_eq]; exact k1, fun s hs => ?_⟩
    obtain ⟨i, hi, hsi⟩ := List.getElem_of_mem hs
    have hr := List.Forall₂.get hlm (i := i) hi (by rw [← hlm.length_eq]; exact hi)
    simp only [List.get_eq_getElem] at hr
    rw [hsi] at hr
    have := k2 _ (List.getElem_mem (by rw [← hlm.length_eq]; exact hi))
    have e3 : s.errors = (lb[i]'(by rw [← hlm.length_eq]; exact hi)).errors := by have := congrArg Sym.errors hr.rest; exact this
    have e4 : s.comments = (lb[i]'(by rw [← hlm.length_eq]; exact hi)).comments := by have := congrArg Sym.comments hr.rest; exact this
    rw [e3, e4]
    exact this
  · rcases h.texts.some_of with ⟨e1, _⟩ | ⟨la, lb, e1, e2, hlm⟩
    · rw [e1] at hl; cases hl
    rw [e1] at hl
    cases hl
    have := congrArg List.length hlm
    simp only [List.length_map] at this
    rw [this]
    exact h2 lb e2
  · rcases h.uel.some_of with ⟨e1, _⟩ | ⟨v, w, e1, e2, hvw⟩
    · rw [e1] at hu; cases hu
    rw [e1] at hu
    cases hu
    have := congrArg List.length hvw.strs
    simp only [Uel.strs, List.length_map] at this
    rw [this]
    exact h3 w e2
  · rcases h.acros.some_of with ⟨e1, _⟩ | ⟨la, lb, e1, e2, hlm⟩
    · rw [e1] at hl; cases hl
    rw [e1] at hl
    cases hl
    rw [hlm.length_eq]
    exact h4 lb e2
  · exact h5 l (by rw [h.domStrs]; exact hl)

/-- the two opened files have the same symbols, elements, texts, acronyms and relaxed domains -/
structure SameContent (a b : Gx) : Prop where
  names : a.names = b.names
  uel : a.uel = b.uel
  texts : a.texts = b.texts
  acros : a.acros = b.acros
  doms : a.domStrs = b.domStrs
  next : a.nextWrite = b.nextWrite
  major : a.majorPos = b.majorPos

theorem Half.same {x y : Gx} {fa fb : List UInt8} (h : Half p q r F a b) (hx : Reopened 0 a fa x) (hy : Reopened 0 b fb y) : SameContent x y := by
  obtain ⟨la, a1, a2⟩ := hx.names
  obtain ⟨lb, b1, b2⟩ := hy.names
  obtain ⟨ua, a3, a4, -⟩ := hx.uel
  obtain ⟨ub, b3, b4, -⟩ := hy.uel
  obtain ⟨ta, a5, a6⟩ := hx.texts rfl
  obtain ⟨tb, b5, b6⟩ := hy.texts rfl
  obtain ⟨ca, a7, a8⟩ := hx.acros
  obtain ⟨cb, b7, b8⟩ := hy.acros
  obtain ⟨da, a9, a10⟩ := hx.doms
  obtain ⟨db, b9, b10⟩ := hy.doms
  refine ⟨?_, ?_, ?_, ?_, ?_, by rw [hx.next, hy.next, h.next], ?_⟩
  · have := h.names
    rw [a1, b1] at this
    rw [a2, b2]
    have hrel : SymsRel q la lb := this
    congr 1
    clear this a1 a2 b1 b2
    induction hrel with
    | nil => rfl
    | @cons s t l m hst _ ih =>
      rw [List.map_cons, List.map_cons, ih]
      congr 1
      exact hst.rest
  · have := h.uel
    rw [a3, b3] at this
    rw [a4, b4, UelRel.strs this]
  · have := h.texts
    rw [a5, b5] at this
    rw [a6, b6]
    have e : ∀ l : List (Str × Int), (l.map fun p => (p.1, (0 : Int))) = (l.map Prod.fst).map (·, (0 : Int)) := by intro l; rw [List.map_map]; rfl
    rw [e, e, show ta.map Prod.fst = tb.map Prod.fst from this]
  · have := h.acros
    rw [a7, b7] at this
    rw [a8, b8]
    have hrel : AcrsRel ca cb := this
    congr 1
    clear this a7 a8 b7 b8
    induction hrel with
    | nil => rfl
    | @cons x y l m hxy _ ih =>
      rw [List.map_cons, List.map_cons, ih]
      congr 1
      cases x; cases y
      simp only [AcrRel, Acr.noRead, Acr.mk.injEq] at hxy
      obtain ⟨rfl, rfl, rfl, -, -⟩ := hxy
      rfl
  · rw [a10, b10, ← a9, ← b9]
    exact h.domStrs.symm
  · rw [hx.major, hy.major]
    have := congrArg Gx.majorPos h.sh
    exact this

/-- records that are in the first part of a file are in the longer file -/
theorem StoredAs.longer {z : Cz} {x y : List UInt8} {lo hi : Int} {s : Sym} {rs : List Rec} (h : StoredAs z y lo hi s rs) (hp : y <+: x) :
    StoredAs z x lo hi s rs := by
  obtain ⟨h1, h2, h3, h4, bytes, t, h5, h6, h7⟩ := h
  obtain ⟨w, rfl⟩ := hp
  refine ⟨h1, h2, h3, h4, bytes, t ++ w.drop (s.pos.toNat - y.length), ?_, h6, h7⟩
  rw [List.drop_append, h5, List.append_assoc]

end Gdx

namespace Gdx.Props

open Gdx

/-- `g` is writing a file that it created itself (gdxOpenWrite, not gdxOpenAppend) -/
def Created (e : Env) (z : Cz) (g : Gx) : Prop :=
  ∃ (g0 g1 : Gx) (pr : Str) (c : Int) (cs : List Call), After e z g0 ∧ (ZFree pr ∧ I32 c) ∧ openWriteEx e g0 false 0 pr c = .ok (g1, (true, 0)) ∧
    (∀ c ∈ cs, c.WF ∧ c.inFile = true) ∧ run e z g1 cs = .ok g

theorem Created.after {e : Env} {z : Cz} {g : Gx} (h : Created e z g) : After e z g := by
  obtain ⟨g0, g1, pr, c, cs, h1, h2, h3, h4, h5⟩ := h
  have h6 : StaysIn e z g1 g := ⟨cs, h4, h5⟩
  refine After.more ?_ h6
  obtain ⟨ds, k1, k2, k3⟩ := h1
  refine ⟨ds ++ [.openWrite false 0 pr c], ?_, ?_, ?_⟩
  · intro x hx
    rcases List.mem_append.mp hx with hx | hx
    · exact k1 x hx
    · rw [List.mem_singleton.mp hx]; exact ⟨(by decide : I32 0), h2.1, h2.2⟩
  · intro x hx
    rcases List.mem_append.mp hx with hx | hx
    · exact k2 x hx
    · rw [List.mem_singleton.mp hx]
      exact ⟨fun _ _ h => (nomatch h), fun _ _ h => (nomatch h)⟩
  · rw [run_append, k3]
    refine run_one ?_
    show stateOf (openWriteEx e g0 false 0 pr c) = _
    rw [h3]
    rfl

structure AtEnd (g : Gx) : Prop where
  opn : g.opened = true
  fin : (g.file.length : Int) = g.nextWrite

theorem prim_atEnd : ∀ a b, Prim .all a b → AtEnd a → AtEnd b := by
  intro a b h ⟨h1, h2⟩
  cases h with
  | ctrl h _ _ =>
    exact ⟨by rw [show b.opened = a.opened from congrArg Core.opened h]; exact h1,
      by rw [show b.file = a.file from congrArg Core.file h, show b.nextWrite = a.nextWrite from congrArg Core.nextWrite h]; exact h2⟩
  | write bs hn =>
    refine ⟨h1, ?_⟩
    show ((splice a.file a.nextWrite.toNat bs).length : Int) = a.nextWrite + bs.length
    rw [splice_length]
    split
    · rename_i hb; subst hb; simpa using h2
    · omega
  | _ => exact ⟨h1, h2⟩

theorem Created.atEnd {e : Env} {z : Cz} (hz : z.Good) {g : Gx} (h : Created e z g) : AtEnd g := by
  obtain ⟨g0, g1, pr, c, cs, h1, h2, h3, h4, h5⟩ := h
  have h6 : After e z g1 := by
    have : Created e z g1 := ⟨g0, g1, pr, c, [], h1, h2, h3, (by simp), rfl⟩
    exact this.after
  refine ((run_inFile prim_atEnd (fun _ _ _ _ _ ⟨a, b⟩ => ⟨a, b⟩) (fun _ ⟨a, b⟩ => ⟨a, b⟩) e z cs g1 (fun c hc => (h4 c hc).1) (fun c hc => (h4 c hc).2)
    (h6.fine hz).aft ?_).of_ok h5).2
  unfold openWriteEx at h3
  split at h3
  · cases h3
  split at h3
  · cases h3
  split at h3
  · cases h3
  obtain ⟨hd, hhd, h3⟩ := Res.bind_eq_ok.mp h3
  cases h3
  refine ⟨rfl, ?_⟩
  show ((splice [] 0 (hd ++ emptyIndex)).length : Int) = (hd.length : Int) + 80
  have he : emptyIndex.length = 80 := by decide
  rw [splice_length, if_neg (by intro h; have := congrArg List.length h; rw [List.length_append, he] at this; cases this), List.length_append, he]
  simp

/-- the calls `ds` after the point `g` are answered alike in a second session -/
def Continues (g : Gx) (ds : List Call) : Prop := twinCalls (NoUserNrs g) (NoChecks g) False ds

theorem twinCalls_inFile {p q : Prop} : ∀ (ds : List Call) (r : Prop), twinCalls p q r ds → ∀ c ∈ ds, c.inFile = true := by
  intro ds
  induction ds with
  | nil => intro r _ c hc; cases hc
  | cons d ds ih =>
    intro r h c hc
    rcases List.mem_cons.mp hc with rfl | hc
    · have := h.1
      cases c <;> first | rfl | exact this.elim
    · exact ih _ h.2 c hc

/-- closing adds to the errors raised, it forgets none -/
theorem close_grows {z : Cz} {g g' : Gx} {k : Int} (ha : Aft g) (h : gdxClose z g = .ok (g', k)) : g.raised <+: g'.raised := by
  unfold gdxClose at h
  obtain ⟨g1, h1, h⟩ := Res.bind_eq_ok.mp h
  obtain ⟨g2, h2, h⟩ := Res.bind_eq_ok.mp h
  cases h
  have e1 : g.raised <+: g1.raised := by
    unfold finishWrite at h1
    split at h1
    · exact (step_grows (p := True) (q := True) (r := True) (e := ⟨[]⟩) (z := z) (c := .writeDone) trivial trivial ha).of_ok h1
    · cases h1
      exact List.prefix_refl _
  have e2 : g2.raised = g1.raised := by
    unfold saveIf at h2
    split at h2
    · exact (saveFile_raised z g1).of_ok h2
    · cases h2; rfl
  show _ <+: g2.raised
  rw [e2]
  exact e1

theorem after_append {e : Env} {z : Cz} {g g' g0 ga : Gx} {k : Int} {pr : Str} {n : Bool × Int} (hg : Fine g) (hm : g.mode = .wInit)
    (hcl : gdxClose z g = .ok (g', k)) (hf : FileFits g) (hl : (g'.file.length : Int) ≤ 9223372036854775807) (h0 : After e z g0) (hp : ZFree pr)
    (ha : openAppend z g0 (.content g'.file) pr = .ok (ga, n)) : After e z ga := by
  have hs : g.stat = .write := hg.ph.stat (Or.inl (Or.inl hm))
  have own : Own z g'.file := ⟨g, g', k, hg.inv, hm, hs, hcl, hf, hl, rfl⟩
  obtain ⟨cs, c1, c2, c3⟩ := h0
  refine ⟨cs ++ [.openAppend (.content g'.file) pr], ?_, ?_, ?_⟩
  · intro c hc
    rcases List.mem_append.mp hc with hc | hc
    · exact c1 c hc
    · cases List.mem_singleton.mp hc
      exact hp
  · intro c hc
    rcases List.mem_append.mp hc with hc | hc
    · exact c2 c hc
    · cases List.mem_singleton.mp hc
      refine ⟨(fun d m h => nomatch h), fun d p h => ?_⟩
      cases h
      rintro f h
      cases h
      exact own
  · rw [run_append, c3]
    refine run_one ?_
    show stateOf (openAppend z g0 (.content g'.file) pr) = _
    rw [ha]
    rfl

theorem C45_main {e : Env} {z : Cz} (hz : z.Good) {g g' g0 gB hB : Gx} {k kB : Int} {ds : List Call} (pr : Str)
    (hg : Created e z g) (hcl : gdxClose z g = .ok (g', k)) (hf : FileFits g) (hl : (g'.file.length : Int) ≤ 9223372036854775807)
    (hr : Resumes g g0) (hd : ∀ c ∈ ds, c.WF) (hc : Continues g ds) (hb : NoChecks g ∨ g.allowBogus = true)
    (hrB : run e z g ds = .ok gB) (hmB : gB.mode ∈ [Mode.wInit, .wRaw, .wMap, .wStr]) (hclB : gdxClose z gB = .ok (hB, kB)) :
    ∃ ga, openAppend z g0 (.content g'.file) pr = .ok (ga, (true, 0)) ∧
      ((¬ NoChecks g ∧ ∃ l, hB.raised = g.raised ++ l ∧ Err.domainViolation ∈ l) ∨
        ∃ gA hA, run e z ga ds = .ok gA ∧ gdxClose z gA = .ok (hA, kB) ∧ hB.file <+: hA.file ∧
          Twin (NoUserNrs g) (NoChecks g) False (Alike g.majorPos ((g.file.length : Int) = g.nextWrite)) gA gB) := by
  have fine := hg.after.fine hz
  have hs : g.stat = .write := fine.ph.stat (Or.inl (Or.inl hr.mode))
  have hend := hg.atEnd hz
  obtain ⟨ga, h1, h2⟩ := append_twin (p := NoUserNrs g) (q := NoChecks g) hz fine.inv hs hend.opn hr (by rw [hend.fin]) hcl hf hl pr id id hb
  refine ⟨ga, h1, ?_⟩
  have grow := (run_grows e z ds hd hc fine.aft).of_ok hrB
  have hin := twinCalls_inFile _ _ hc
  obtain ⟨haB, hM⟩ := (run_inFile prim_major (fun _ _ _ _ _ h => h) (fun _ h => h) e z ds g hd hin fine.aft rfl).of_ok hrB
  rcases run_twin (Alike.puts _ _) e z ds hd hc fine.aft h2 gB hrB with hl | ⟨gA, h3, h4⟩
  · left
    exact hl.grow (close_grows haB hclB)
  · rcases close_sim (Alike.puts _ _) (G := fun x y => y <+: x) z
      (fun x y n t h => (h.save t.all (indexBytes n t) (indexBytes_length _ _)).prefix hend.fin) haB hM hmB h4 _ hclB with hl | ⟨⟨hA, kA⟩, h5, h6, h7⟩
    · left
      exact hl.from grow
    · cases h7
      exact Or.inr ⟨gA, hA, h3, h5, h6, h4⟩

/-- C45 (partial): write a file in one session (calls leading to `g`, then `ds`, then gdxClose: file of `hB`), or close it at
    `g` (file of `g'`), open it with gdxOpenAppend in any other object `g0`, make the calls `ds`, close: file of `hA`. Then
    gdxOpenAppend succeeds, the calls and gdxClose go through, with the same answer, and the file of the single session is an
    initial part of the other one (which may have the rest of an older table behind it). The only exception: in the single
    session, a record written by `ds` violates a domain and `g` had checks that gdxOpenAppend does not restore.
    What else is missing: `Resumes` (errors of unfinished symbols, user-defined special values, unnamed acronyms and the
    settings for domains are not in the file) and `Continues` (mapped writes need the user numbers, a comment to "the current
    symbol" needs one). `C45_*` below: each of these is necessary. -/
theorem C45_append_partial {e : Env} {z : Cz} (hz : z.Good) {g g' g0 gB hB : Gx} {k kB : Int} {ds : List Call} (pr : Str)
    (hg : Created e z g) (hcl : gdxClose z g = .ok (g', k)) (hf : FileFits g) (hl : (g'.file.length : Int) ≤ 9223372036854775807)
    (hr : Resumes g g0) (hd : ∀ c ∈ ds, c.WF) (hc : Continues g ds) (hb : NoChecks g ∨ g.allowBogus = true)
    (hrB : run e z g ds = .ok gB) (hmB : gB.mode ∈ [Mode.wInit, .wRaw, .wMap, .wStr]) (hclB : gdxClose z gB = .ok (hB, kB)) :
    ∃ ga, openAppend z g0 (.content g'.file) pr = .ok (ga, (true, 0)) ∧
      ((¬ NoChecks g ∧ ∃ l, hB.raised = g.raised ++ l ∧ Err.domainViolation ∈ l) ∨
        ∃ gA hA, run e z ga ds = .ok gA ∧ gdxClose z gA = .ok (hA, kB) ∧ hB.file <+: hA.file) := by
  obtain ⟨ga, h1, h2⟩ := C45_main hz pr hg hcl hf hl hr hd hc hb hrB hmB hclB
  exact ⟨ga, h1, h2.imp_right fun ⟨gA, hA, h3, h4, h5, _⟩ => ⟨gA, hA, h3, h4, h5⟩⟩

/-- C45 (partial), what readers see: the two files have the same symbols, elements, texts, acronyms and domains, and all
    records of the file written in one session are also in the other one. -/
theorem C45_content_partial {e : Env} {z : Cz} (hz : z.Good) {g g' g0 gB hB : Gx} {k kB : Int} {ds : List Call} (pr : Str) (hp : ZFree pr)
    (hg : Created e z g) (hcl : gdxClose z g = .ok (g', k)) (hf : FileFits g) (hl : (g'.file.length : Int) ≤ 9223372036854775807)
    (h0 : After e z g0) (hr : Resumes g g0) (hd : ∀ c ∈ ds, c.WF) (hc : Continues g ds) (hb : NoChecks g ∨ g.allowBogus = true)
    (hrB : run e z g ds = .ok gB) (hmB : gB.mode = .wInit) (hclB : gdxClose z gB = .ok (hB, kB)) (hfB : FileFits gB)
    {ga gA hA : Gx} {r : Bool × Int} {kA : Int} (ha : openAppend z g0 (.content g'.file) pr = .ok (ga, r)) (hrA : run e z ga ds = .ok gA)
    (hclA : gdxClose z gA = .ok (hA, kA)) (hlA : (hA.file.length : Int) ≤ 9223372036854775807)
    (hv : NoChecks g ∨ ∀ l, hB.raised = g.raised ++ l → Err.domainViolation ∉ l) {g3 : Gx} (h3 : g3.mode = .notOpen) :
    ∃ a b, openRead z g3 (.content hA.file) = .ok (a, (true, 0)) ∧ openRead z g3 (.content hB.file) = .ok (b, (true, 0)) ∧ SameContent a b ∧
      ∀ lo hi s rs, StoredAs z hB.file lo hi s rs → StoredAs z hA.file lo hi s rs := by
  obtain ⟨ga', h1, h2⟩ := C45_main hz pr hg hcl hf hl hr hd hc hb hrB (by rw [hmB]; decide) hclB
  rw [ha] at h1
  cases h1
  rcases h2 with ⟨hn, l, h4, h5⟩ | ⟨gA', hA', h4, h5, h6, ht⟩
  · rcases hv with hv | hv
    · exact absurd hv hn
    · exact absurd h5 (hv l h4)
  rw [hrA] at h4
  cases h4
  rw [hclA] at h5
  cases h5
  have fine := hg.after.fine hz
  have hs : g.stat = .write := fine.ph.stat (Or.inl (Or.inl hr.mode))
  have hin := twinCalls_inFile _ _ hc
  have stays : ∀ {x y : Gx}, run e z x ds = .ok y → StaysIn e z x y := fun h => ⟨ds, fun c hc => ⟨hd c hc, hin c hc⟩, h⟩
  have fB := (hg.after.more (stays hrB)).fine hz
  have afa : After e z ga := after_append fine hr.mode hcl hf hl h0 hp ha
  have fA := (afa.more (stays hrA)).fine hz
  have hmA : gA.mode = .wInit := ht.half.mode.trans hmB
  have sB : gB.stat = .write := fB.ph.stat (Or.inl (Or.inl hmB))
  have sA : gA.stat = .write := fA.ph.stat (Or.inl (Or.inl hmA))
  have hlB : (hB.file.length : Int) ≤ 9223372036854775807 := by have := h6.length_le; omega
  obtain ⟨a, a1, a2, -⟩ := close_open hz fA.inv hmA sA hclA (ht.half.fits hfB) hlA g3 h3 0
  obtain ⟨b, b1, b2, -⟩ := close_open hz fB.inv hmB sB hclB hfB hlB g3 h3 0
  exact ⟨a, b, a1, b1, ht.half.same a2 b2, fun _ _ _ _ h => h.longer h6⟩


/-! ### symbols that are in the file stay as they are -/

/-- The file that `g` is writing is closed, and opened with gdxOpenAppend by some other object, which then is `ga`. The numbers of
    the file fit into their fields. -/
inductive Appends (e : Env) (z : Cz) (g ga : Gx) : Prop
  | intro (g0 g' : Gx) (k : Int) (pr : Str) (n : Bool × Int) (hm : g.mode = .wInit) (hc : gdxClose z g = .ok (g', k)) (hf : FileFits g)
      (hl : (g'.file.length : Int) ≤ 9223372036854775807) (h0 : After e z g0) (hn : g0.mode = .notOpen) (hp : ZFree pr)
      (ho : openAppend z g0 (.content g'.file) pr = .ok (ga, n))

/-- the file that `g` is writing is written by `ga` later on: any number of calls and of sessions with gdxOpenAppend between them -/
inductive Later (e : Env) (z : Cz) : Gx → Gx → Prop
  | refl (g : Gx) : Later e z g g
  | calls {g g1 ga : Gx} (h : Later e z g g1) (hs : StaysIn e z g1 ga) : Later e z g ga
  | append {g g1 ga : Gx} (h : Later e z g g1) (hs : Appends e z g1 ga) : Later e z g ga

theorem _root_.Gdx.Kept.append {e : Env} {z : Cz} (hz : z.Good) {m : Nat} {s0 : Sym} {rs : List Rec} {g ga : Gx} (hg : Fine g)
    (hk : Kept z m s0 rs g) (h : Appends e z g ga) : After e z ga ∧ Kept z m { s0 with bitmap := none } rs ga := by
  obtain ⟨g0, g', k, pr, n, hm, hc, hf, hl, h0, hn, hp, ho⟩ := h
  refine ⟨after_append hg hm hc hf hl h0 hp ho, ?_⟩
  obtain ⟨g2, h1, h2, h3⟩ := close_open hz hg.inv hm hk.stat hc hf hl { g0 with producer2 := pr, appendActive := true } hn 0
  have e1 : openAppend z g0 (.content g'.file) pr = .ok ({ g2 with mode := .wInit, stat := .write, comprOut := g2.uncompr }, (true, 0)) := by
    unfold openAppend
    dsimp only
    rw [h1]
    simp only [Res.bind_ok, Res.pure_eq]
    rw [if_neg (by decide), if_neg (by rw [h2.ver]; decide)]
  rw [ho] at e1
  cases e1
  refine ⟨rfl, Or.inl (Or.inl rfl), fun hw => absurd hw (show ¬ Writing .wInit by decide), ?_⟩
  obtain ⟨syms, s, f1, f2, f3, f4⟩ := hk.sym
  obtain ⟨l, l1, l2⟩ := h2.names
  rw [f1] at l1
  cases l1
  refine ⟨_, s.reopened, l2, by rw [List.getElem?_map, f2]; rfl, ⟨f3.name, f3.pos, f3.dim, f3.typ, f3.ui, f3.cnt, f3.errs, f3.txt, f3.compr, rfl⟩, ?_⟩
  show StoredAs z g2.file (g2.majorPos + 80) g2.nextWrite _ rs
  rw [h2.file, h2.major, h2.next]
  obtain ⟨n0, t, ht⟩ := close_file hm hc
  rw [ht]
  refine StoredAs.reopened (StoredAs.before (StoredAs.behind f4 (by omega) (le_refl _) _) _ ?_)
  rw [indexBytes_length]
  omega

/-- the symbol number `m + 1` of the file that `g` is writing is finished, with the records `acc` -/
def Holds (z : Cz) (d : SymDesc) (m : Nat) (acc : List RawEntry) (g : Gx) : Prop :=
  (∀ x ∈ acc, Spec.Distinct x.sv) ∧ (InRead g ∨ ∃ s, SymDesc.Of d s ∧
      SymLog s (acc.map fun x => (x.key, x.vals)) ∧ Kept z m s (acc.map fun x => stored x.sv x.key x.vals) g)

theorem holds_later {e : Env} {z : Cz} (hz : z.Good) {d : SymDesc} {m : Nat} {acc : List RawEntry} {g ga : Gx} (hl : Later e z g ga)
    (ha : After e z g) (h : Holds z d m acc g) : After e z ga ∧ Holds z d m acc ga := by
  induction hl with
  | refl => exact ⟨ha, h⟩
  | calls _ hs ih =>
    obtain ⟨i1, i2, i3⟩ := ih
    refine ⟨i1.more hs, i2, ?_⟩
    obtain ⟨cs, c1, c2⟩ := hs
    rcases i3 with i3 | ⟨s, a1, a2, a3⟩
    · exact Or.inl (InRead.run e z cs _ _ i3 (fun c hc => (c1 c hc).2) c2)
    · rcases a3.run e cs _ _ (fun c hc => (c1 c hc).2) c2 with a3 | a3
      · exact Or.inr ⟨s, a1, a2, a3⟩
      · exact Or.inl a3
  | append _ hs ih =>
    obtain ⟨i1, i2, i3⟩ := ih
    rcases i3 with i3 | ⟨s, a1, a2, a3⟩
    · obtain ⟨g0, g', k, pr, n, hm, _⟩ := hs
      exact absurd hm i3.notWrite.1
    · obtain ⟨b1, b2⟩ := a3.append hz (i1.fine hz) hs
      exact ⟨b1, i2, Or.inr ⟨{ s with bitmap := none }, ⟨a1.name, a1.dim, a1.typ, a1.ui⟩, ⟨a2.typ, a2.txt, fun b hb => by cases hb⟩, b2⟩⟩

theorem holds_loaded {e : Env} {z : Cz} (hz : z.Good) {d : SymDesc} {m : Nat} {acc : List RawEntry} {g g2 : Gx} (ha : After e z g)
    (h : Holds z d m acc g) (hr : Reopens z g g2) : Loaded z g2 m d acc ∧ g2.rsv = SVTab.default ∧ ∃ f, Reopened 0 g f g2 := by
  obtain ⟨g0, g', k, hm, hc, hf, hl, h0, ho⟩ := hr
  have f := ha.fine hz
  obtain ⟨hsv, hk⟩ := h
  rcases hk with hk | ⟨s, a1, a2, a3⟩
  · exact absurd hm hk.notWrite.1
  · obtain ⟨g2', s', b1, b2, b3, b4, b5⟩ := a3.reopen hz a2.typ f.inv hm hc hf hl g0 h0.mode h0.text h0.auto 0
    have he : openRead z g0 (.content g'.file) = .ok (g2', (true, 0)) := b1
    rw [ho] at he
    cases he
    have e1 : SymDesc.Of d { s with bitmap := none } := ⟨a1.name, a1.dim, a1.typ, a1.ui⟩
    have e2 : SymLog { s with bitmap := none } (acc.map fun x => (x.key, x.vals)) := ⟨a2.typ, a2.txt, fun b hb => by cases hb⟩
    refine ⟨⟨b2.mode, hsv, ⟨s', e1.same b4, e2.same b4, b5⟩, ?_⟩, b2.sv.2, _, b2⟩
    obtain ⟨u, u1, u2, _⟩ := b2.uel
    refine ⟨_, u2, ?_⟩
    intro x hx
    obtain ⟨y, hy, rfl⟩ := List.mem_map.mp hx
    have := (f.inv.els u u1).good y hy
    unfold goodUEL at this
    simp only [Bool.and_eq_true, decide_eq_true_eq] at this
    exact this.1.1

/-- C45: a symbol that was written (in any mode, in any history) is not changed by anything that is written later: by calls in the
    same session, or after gdxClose and gdxOpenAppend by other objects, any number of times. Readers of the last file get exactly the
    records that were stored. -/
theorem C45_kept {e : Env} {z : Cz} (hz : z.Good) {name : Str} {dim typ ui : Int} {m : Nat} {acc : List RawEntry} {g ga g2 : Gx}
    (h : Written e z name dim typ ui m acc g) (hl : Later e z g ga) (hr : Reopens z ga g2) (r : SVTab) :
    symbolInfo g2 (m + 1) = ⟨true, name, dim, typ.toNat⟩ ∧
    ∃ outs, Delivered r (acrOf g2) ⟨name, dim, typ.toNat, ui⟩ acc outs ∧
      (∃ g3 g4, dataReadRawStart z (setReadSpecialValues g2 r) (m + 1) = .ok (g3, (true, outs.length)) ∧ DeliversRaw g3 outs g4 ∧
        g4.mode = .rInit) ∧
      (∃ g3 g4 ss, dataReadStrStart z (setReadSpecialValues g2 r) (m + 1) = .ok (g3, (true, outs.length)) ∧ DeliversStr g3 ss g4 ∧
        g4.mode = .rInit ∧ List.Forall₂ (Translates g2) outs ss) := by
  obtain ⟨_, k1, k2⟩ := h.kept hz
  obtain ⟨i1, i2⟩ := holds_later hz hl h.after ⟨k1, k2⟩
  have h0 := (holds_loaded hz i1 i2 hr).1
  have h1 := h0.readSV r
  refine ⟨?_, ?_⟩
  · obtain ⟨s, a1, _, a2⟩ := h0.data
    obtain ⟨syms, s1, s2⟩ := a2.names
    have hlt := (List.getElem?_eq_some_iff.mp s2).1
    unfold symbolInfo Gx.symAt
    rw [if_neg (by omega), s1]
    dsimp only
    rw [if_pos (by omega), show ((m : Int) + 1 - 1).toNat = m by omega, s2]
    dsimp only
    rw [a1.name, a1.dim, a1.typ]
  obtain ⟨s, _, _, hd⟩ := h1.data
  obtain ⟨outs, h2, ⟨g3, g4, h3, h4, h5, _⟩, u, g5, g6, h6, h7, h8, h9, h10⟩ := h1.reads hz hd.self
  refine ⟨outs, h2, ⟨g3, g4, h3, h4, h5⟩, g5, g6, _, h7, h8, h9, ?_⟩
  rw [List.forall₂_map_right_iff]
  have hu : g2.uel = some u := h6
  obtain ⟨u', hu', hu2⟩ := h1.els
  have hu' : g2.uel = some u' := hu'
  rw [hu] at hu'
  cases hu'
  refine List.forall₂_same.mpr fun o _ => ⟨?_, rfl, rfl⟩
  exact elemStrs_get (g := g2) (by rw [hu]; exact elemStrs_out hu2 o.key)

/-! ### what is lost: each condition is necessary -/

/-- the calls `cs ++ ds` in one session: the file, as a reader sees it -/
def oneGo {α : Type} (cs ds : List Call) (f : Gx → Res α) : Res α :=
  after (cs ++ ds) fun g => do
    let (g1, _) ← gdxClose Cz.id g
    let (g2, _) ← openRead Cz.id Gx.new (.content g1.file)
    f g2

/-- the calls `cs`, gdxClose, gdxOpenAppend, the calls `ds` -/
def twoGo {α : Type} (cs ds : List Call) (f : Gx → Res α) : Res α :=
  after cs fun g => do
    let (g1, _) ← gdxClose Cz.id g
    after (.openAppend (.content g1.file) [65] :: ds) fun g => do
      let (g1, _) ← gdxClose Cz.id g
      let (g2, _) ← openRead Cz.id Gx.new (.content g1.file)
      f g2

/-- number of records and number of errors of each symbol -/
def countsOf (g : Gx) : Res (List (Int × Int)) := .ok ((g.names.getD []).map fun s => (s.dataCount, s.errors))

/-- the user numbers of elements are lost: a mapped write that was good in the first session is refused in the second one -/
theorem C45_userNrs_counterexample :
    let cs := [.openWrite false 0 [65] 0, .uelMapStart, .uelMap 5 [97], .uelDone]
    let ds := [.mapStart [112] [] 1 1 0, .writeMap [5] [Dbl.one], .writeDone]
    oneGo cs ds countsOf = .ok [(1, 0)] ∧ twoGo cs ds countsOf = .ok [(0, 1)] := by decide +kernel

/-- special values chosen by the user are lost: the number 1, declared to mean "undefined", is now stored as 1 -/
theorem C45_special_counterexample :
    let cs := [.openWrite false 0 [65] 0, .setSpecialValues { SVTab.default with und := Dbl.one }]
    let ds := [.rawStart [112] [] 1 1 0, .writeRaw [1] [Dbl.one], .writeDone]
    let first := fun g => do
      let (g, _) ← dataReadRawStart Cz.id g 1
      let (_, o) ← dataReadRaw g
      pure (o.map RecOut.vals)
    oneGo cs ds first = .ok (some [Dbl.sv_und]) ∧ twoGo cs ds first = .ok (some [Dbl.one]) := by decide +kernel

/-- the number of errors before the first symbol is lost -/
theorem C45_errors_counterexample :
    let cs := [.openWrite false 0 [65] 0, .writeDone]
    let ds := [.rawStart [112] [] 1 1 0, .writeRaw [1] [Dbl.one], .writeDone]
    oneGo cs ds countsOf = .ok [(1, 1)] ∧ twoGo cs ds countsOf = .ok [(1, 0)] := by decide +kernel

/-- a comment with number 0 is for the current symbol: refused if there is none, but after gdxOpenAppend it goes to the last symbol that
    was read -/
theorem C45_comment_counterexample :
    let cs := [.openWrite false 0 [65] 0, .rawStart [112] [] 1 1 0, .writeDone, .rawStart [113] [] 1 1 0, .writeDone]
    let ds := [.addComment 0 [99]]
    let coms := fun (g : Gx) => .ok ((g.names.getD []).map fun s => s.comments)
    oneGo cs ds coms = .ok [[], []] ∧ twoGo cs ds coms = .ok [[], [some [99]]] := by decide +kernel

/-- an acronym without a name gets one when the file is closed, and then an acronym with this name is refused -/
theorem C45_acronym_counterexample :
    let cs := [.openWrite false 0 [65] 0, .rawStart [112] [] 1 1 0, .writeRaw [1] [acrValue 1], .writeDone]
    let ds := [.acronymAdd (unknownACRO ++ [49]) [] 2]
    let acrs := fun (g : Gx) => .ok ((g.acros.getD []).map fun a => (a.name, a.map))
    oneGo cs ds acrs = .ok [(unknownACRO ++ [49], 1), (unknownACRO ++ [49], 2)] ∧ twoGo cs ds acrs = .ok [(unknownACRO ++ [49], 1)] := by decide +kernel

/-- the domain checks are lost (see also `C25_append_counterexample`): a record outside of its domain is stored -/
theorem C45_domain_counterexample :
    let cs := [.openWrite false 0 [65] 0, .rawStart [105] [] 1 0 0, .writeRaw [1] [Dbl.zero], .writeDone]
    let ds := [.rawStart [112] [] 1 1 0, .setDomain [[105]], .writeRaw [2] [Dbl.one], .writeDone]
    oneGo cs ds countsOf = .ok [(1, 0), (0, 1)] ∧ twoGo cs ds countsOf = .ok [(1, 0), (1, 0)] := by decide +kernel

/-- set, its elements, an acronym, a text -/
def exApp1 : List Call :=
  [.strStart [105] [115] 1 0 0, .writeStr [[97]] [Dbl.zero], .writeStr [[98]] [Dbl.zero], .writeDone, .acronymAdd [102] [] 1, .addSetText [116]]

/-- an alias, a parameter with a domain, a comment, one more element -/
def exApp2 : List Call :=
  [.addAlias [105] [106], .strStart [112] [] 2 1 0, .setDomain [[105], [106]], .writeStr [[97], [98]] [Dbl.one], .writeStr [[97], [97]] [Dbl.one],
    .writeDone, .addComment 1 [99], .uelRawStart, .uelRaw [99], .uelDone]

/-- names and positions -/
def symsOf (g : Gx) : Res (List (Str × Int)) := .ok ((g.names.getD []).map fun s => (s.name, s.pos))

/-- domains -/
def domsOf (g : Gx) : Res (List (Option (List Int))) := .ok ((g.names.getD []).map Sym.domSyms)

/-- elements and texts -/
def stringsOf (g : Gx) : Res (Option (List Str) × Option (List (Str × Int))) := .ok (g.uel.map Uel.strs, g.texts)

/-- a case in which nothing is lost -/
example : oneGo (.openWrite false 0 [65] 0 :: exApp1) exApp2 symsOf = .ok [([105], 144), ([106], 0), ([112], 170)] ∧
    twoGo (.openWrite false 0 [65] 0 :: exApp1) exApp2 symsOf = .ok [([105], 144), ([106], 0), ([112], 170)] ∧
    oneGo (.openWrite false 0 [65] 0 :: exApp1) exApp2 domsOf = .ok [none, none, some [1, 2]] ∧
    twoGo (.openWrite false 0 [65] 0 :: exApp1) exApp2 domsOf = .ok [none, none, some [1, 2]] := by decide +kernel

example : oneGo (.openWrite false 0 [65] 0 :: exApp1) exApp2 countsOf = .ok [(2, 0), (0, 0), (2, 0)] ∧
    twoGo (.openWrite false 0 [65] 0 :: exApp1) exApp2 countsOf = .ok [(2, 0), (0, 0), (2, 0)] ∧
    twoGo (.openWrite false 0 [65] 0 :: exApp1) exApp2 stringsOf = .ok (some [[97], [98], [99]], some [([], 0), ([116], 0)]) := by decide +kernel

/-- it fulfils the conditions of `C45_append_partial` -/
example : ∃ g gB hB k, Created ⟨[]⟩ Cz.id g ∧ Resumes g Gx.new ∧ (∀ c ∈ exApp2, c.WF) ∧ Continues g exApp2 ∧ g.allowBogus = true ∧
    run ⟨[]⟩ Cz.id g exApp2 = .ok gB ∧ gB.mode = .wInit ∧ gdxClose Cz.id gB = .ok (hB, k) := by
  have key : after (.openWrite false 0 [65] 0 :: exApp1) (fun g => do
      let gB ← run ⟨[]⟩ Cz.id g exApp2
      let (_, k) ← gdxClose Cz.id gB
      pure (decide (g.mode = .wInit ∧ g.errCnt = 0 ∧ g.sv = SVTab.default ∧ g.acros = some [⟨[102], [], 1, 1, false⟩] ∧ g.storeDom = true ∧ g.allowBogus = true ∧
        gB.mode = .wInit))) = .ok true := by decide +kernel
  obtain ⟨g, h1, key⟩ := Res.bind_eq_ok.mp key
  obtain ⟨gB, h2, key⟩ := Res.bind_eq_ok.mp key
  obtain ⟨⟨hB, k⟩, h3, key⟩ := Res.bind_eq_ok.mp key
  have key := of_decide_eq_true (Res.ok.inj key)
  obtain ⟨k1, k2, k3, k4, k5, k6, k7⟩ := key
  obtain ⟨g1, h4, h5⟩ := Res.bind_eq_ok.mp h1
  obtain ⟨⟨g1', b, n⟩, h6, h7⟩ := Res.bind_eq_ok.mp h4
  cases h7
  have e1 : (openWriteEx ⟨[]⟩ Gx.new false 0 [65] 0).All fun x => x.2 = (true, 0) := by
    show ((openWriteEx ⟨[]⟩ Gx.new false 0 [65] 0).All fun x => x.2 = (true, 0))
    exact rfl
  have e2 := e1.of_ok h6
  cases e2
  refine ⟨g, gB, hB, k, ⟨Gx.new, g1', [65], 0, exApp1, ⟨[], by simp, (by intro c hc; cases hc), rfl⟩, ⟨by unfold ZFree; decide, by decide⟩, h6, ?_, h5⟩,
    ⟨k1, k2, k3, ?_, rfl, k5.symm, k6.symm⟩, ?_, ?_, k6, h2, k7, h3⟩
  · simp [exApp1, Call.WF, Call.inFile, ZFree, I32]
  · rw [k4]
    rintro l ⟨⟩ a ha
    rw [List.mem_singleton.mp ha]
    decide
  · simp [exApp2, Call.WF, ZFree, I32]
  · simp [Continues, exApp2, twinCalls, Call.twin]

end Gdx.Props
