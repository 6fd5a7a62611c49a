import Verif.Proofs.SortInv
import Verif.Proofs.RawTotal

/-!
Over all histories in which keys of raw records are numbers from 0 to 2^31 - 257: while records are written in raw mode, `Sess` holds, unless CurSyPtr is
null.
-/

namespace Gdx

open Spec

/-- the keys of gdxDataWriteRaw -/
def Call.keysOk : Call → Prop
  | .writeRaw key _ => ∀ k ∈ key, KeyOk k
  | _ => True

theorem rawMode_fam {m : Mode} : RawMode m ↔ fam m = 1 := by
  unfold RawMode
  cases m <;> decide

/-- While records are written in raw mode: CurSyPtr is null, or the records are in order. -/
def RawInv (g : Gx) : Prop :=
  RawMode g.mode → (g.cur = .none ∧ g.sort = none) ∨ ∃ m d rs l, Sess g m d rs l ∧ DomsOk g ∧ ∀ r ∈ rs, ∀ k ∈ r.key, KeyOk k

theorem RawInv.not {g : Gx} (h : ¬ RawMode g.mode) : RawInv g := fun hk => absurd hk h

theorem RawInv.congr {g g' : Gx} (h : RawInv g) (hm : g'.mode = g.mode) (hs : g'.ses = g.ses) (hn : g'.names = g.names) : RawInv g' := by
  intro hk
  rw [hm] at hk
  have hse : Ses g g' := ⟨hs, by rw [hn]; exact SymsSame.refl _⟩
  rcases h hk with h | ⟨m, d, rs, l, h1, h2, h3⟩
  · exact Or.inl ⟨(congrArg SesCore.cur hs).trans h.1, (congrArg SesCore.sort hs).trans h.2⟩
  · exact Or.inr ⟨m, d, rs, l, h1.ses hse, h2.ses hse, h3⟩

theorem noteElem_bits {key : List Int} {vals : List Dbl} {s s' : Sym} (h : noteElem key vals s = .ok s') : s'.bitmap.isSome = s.bitmap.isSome := by
  unfold noteElem at h
  split at h
  · obtain ⟨x, _, h⟩ := Res.bind_eq_ok.mp h
    generalize hs1 : (if nonZero x = true then ({ s with setText := true } : Sym) else s) = s1 at h
    have hb : s1.bitmap = s.bitmap := by subst hs1; split <;> rfl
    dsimp only at h
    split at h
    · rename_i hkb _
      obtain ⟨b', _, h⟩ := Res.bind_eq_ok.mp h
      cases h
      rw [← hb, hkb]
      rfl
    · cases h
      rw [hb]
  · cases h
    rfl

theorem DomsOk.setBits {g : Gx} (h : DomsOk g) {syms : List Sym} {m : Nat} {s s' : Sym} (hn : g.names = some syms) (hm : syms[m]? = some s)
    (hb : s'.bitmap.isSome = s.bitmap.isSome) : DomsOk { g with names := some (syms.set m s') } := by
  intro d t hd
  obtain ⟨h1, syms', s1, b, h2, h3, h4⟩ := h d t hd
  rw [hn] at h2
  cases h2
  by_cases e : m = t - 1
  · subst e
    rw [hm] at h3
    cases h3
    rw [h4] at hb
    obtain ⟨b', hb'⟩ := Option.isSome_iff_exists.mp (hb.trans rfl)
    exact ⟨h1, _, s', b', rfl, by rw [List.getElem?_set, if_pos rfl, if_pos (List.getElem?_eq_some_iff.mp hm).1], hb'⟩
  · exact ⟨h1, _, s1, b, rfl, by rw [List.getElem?_set, if_neg e]; exact h3, h4⟩

theorem DomsOk.congr {g g' : Gx} (h : DomsOk g) (h1 : g'.wrBits = g.wrBits) (h2 : g'.names = g.names) : DomsOk g' := by
  unfold DomsOk
  rw [h1, h2]
  exact h

theorem DomsOk.doWrite {g g' : Gx} {key : List Int} {vals : List Dbl} {b : Bool} (h : doWrite g key vals = .ok (g', b)) (hg : DomsOk g) : DomsOk g' := by
  obtain ⟨_, _, _, syms, bad, _, _, hh⟩ := doWrite_cases h
  rcases hh with ⟨_, rfl, rfl⟩ | ⟨_, o, _, ⟨_, rfl, rfl⟩ | ⟨_, rfl, rfl⟩ | ⟨bs, l, _, ha⟩⟩
  · obtain ⟨l, hl⟩ := addErrDom_same (g.raise Err.domainViolation) (List.zipWith (fun b k => if b then -k else k) bad key) vals
    rw [hl]; exact hg.congr rfl rfl
  · obtain ⟨l, hl⟩ := addErr_same (g.raise Err.dataDuplicate) key vals
    rw [hl]; exact hg.congr rfl rfl
  · obtain ⟨l, hl⟩ := addErr_same (g.raise Err.rawNotSorted) key vals
    rw [hl]; exact hg.congr rfl rfl
  · obtain ⟨_, _, acros, acros', n, syms, s, s', e1, e2, e3, e4, e5, e6, rfl⟩ := acceptRec_cases ha
    exact (hg.setBits e4 e5 (noteElem_bits e6)).congr rfl rfl

theorem DomsOk.total {g : Gx} {syms : List Sym} (hn : g.names = some syms) (h : DomsOk g) : ∀ key : List Int, ∃ bad, domBad syms g.wrBits key = .ok bad := by
  have : ∀ (key : List Int) (ws : List (Option Nat)),
      (∀ d t : Nat, ws[d]? = some (some t) → 1 ≤ t ∧ ∃ s b, syms[t - 1]? = some s ∧ s.bitmap = some b) → ∃ bad, domBad syms ws key = .ok bad := by
    intro key
    induction key with
    | nil => intro ws _; exact ⟨[], by cases ws with | nil => rfl | cons w ws => cases w <;> rfl⟩
    | cons k ks ih =>
      intro ws hw
      cases ws with
      | nil =>
        obtain ⟨r, hr⟩ := ih [] hw
        exact ⟨false :: r, by rw [domBad, hr]; rfl⟩
      | cons w ws =>
        obtain ⟨r, hr⟩ := ih ws fun d t hd => hw (d + 1) t (by simpa using hd)
        cases w with
        | none => exact ⟨false :: r, by rw [domBad, hr]; rfl⟩
        | some t =>
          obtain ⟨h1, s, b, h2, h3⟩ := hw 0 t rfl
          obtain ⟨n, rfl⟩ : ∃ n, t = n + 1 := ⟨t - 1, by omega⟩
          have h4 : at1 syms ((n + 1 : Nat) : Int) = .ok s := by
            rw [show ((n + 1 : Nat) : Int) = (n : Int) + 1 by push_cast; rfl]
            exact at1_nat (by simpa using h2)
          refine ⟨(!b.get k) :: r, ?_⟩
          rw [domBad, h4]
          simp only [Res.bind_ok]
          rw [h3]
          simp only [need, Res.bind_ok]
          rw [hr]
          rfl
  intro key
  refine this key g.wrBits fun d t hd => ?_
  obtain ⟨h1, syms', s, b, h2, h3, h4⟩ := h d t hd
  rw [hn] at h2
  cases h2
  exact ⟨h1, s, b, h3, h4⟩

theorem domsOk_none {g : Gx} {n : Nat} (h : g.wrBits = List.replicate n none) : DomsOk g := by
  intro d t hd
  rw [h, List.getElem?_replicate] at hd
  split at hd <;> cases hd

theorem prepare_bits {g g' : Gx} {name text : Str} {dim typ ui : Int} (hp : prepareWrite g name text dim typ ui = .ok (g', true)) :
    g'.wrBits = List.replicate dim.toNat none := by
  rcases prepareWrite_cases hp with ⟨hx, _⟩ | ⟨_, _, syms, sy, _, _, _, _, _, _, _, _, _, _, _, rfl⟩
  · cases hx
  · rfl

theorem initDoWrite_bits {g g' : Gx} {n : Int} (h : initDoWrite g n = .ok g') : g'.wrBits = g.wrBits := by
  unfold initDoWrite at h
  split at h
  · cases h
  obtain ⟨g1, h1, h⟩ := Res.bind_eq_ok.mp h
  obtain ⟨_, _, _, _, _, _, rfl⟩ := modCur_ok h1
  cases h
  rfl

theorem rawStart_bits {g g' : Gx} {n t : Str} {d ty ui : Int} (h : dataWriteRawStart g n t d ty ui = .ok (g', true)) : DomsOk g' := by
  unfold dataWriteRawStart at h
  obtain ⟨⟨gp, ok⟩, h1, h⟩ := Res.bind_eq_ok.mp h
  cases ok with
  | false => cases h
  | true =>
    simp only [Bool.true_eq_false, if_false] at h
    obtain ⟨g2, h2, h⟩ := Res.bind_eq_ok.mp h
    cases h
    have hp := prepare_bits h1
    exact domsOk_none ((initDoWrite_bits h2).trans hp)

theorem rawStartBounds_bits {g g' : Gx} {n t : Str} {d ty ui : Int} {bs : List (Int × Int)}
    (h : dataWriteRawStartKeyBounds g n t d ty ui bs = .ok (g', true)) : DomsOk g' := by
  unfold dataWriteRawStartKeyBounds at h
  obtain ⟨⟨gp, ok⟩, h1, h⟩ := Res.bind_eq_ok.mp h
  cases ok with
  | false => cases h
  | true =>
    simp only [Bool.true_eq_false, if_false] at h
    split at h
    · cases h
    obtain ⟨g2, h2, h⟩ := Res.bind_eq_ok.mp h
    cases h
    have hp := prepare_bits h1
    exact domsOk_none ((initDoWrite_bits h2).trans hp)

theorem rawStart_no {g g' : Gx} {n t : Str} {d ty ui : Int} (h : dataWriteRawStart g n t d ty ui = .ok (g', false)) : g'.mode = g.mode := by
  unfold dataWriteRawStart at h
  obtain ⟨⟨g1, ok⟩, h1, h⟩ := Res.bind_eq_ok.mp h
  cases ok with
  | false =>
    cases h
    rcases prepareWrite_cases h1 with ⟨_, k, rfl⟩ | ⟨hx, _⟩
    · rfl
    · cases hx
  | true =>
    simp only [Bool.true_eq_false, if_false] at h
    obtain ⟨_, _, h⟩ := Res.bind_eq_ok.mp h
    cases h

theorem rawStartBounds_no {g g' : Gx} {n t : Str} {d ty ui : Int} {bs : List (Int × Int)}
    (h : dataWriteRawStartKeyBounds g n t d ty ui bs = .ok (g', false)) : g'.mode = g.mode := by
  unfold dataWriteRawStartKeyBounds at h
  obtain ⟨⟨g1, ok⟩, h1, h⟩ := Res.bind_eq_ok.mp h
  cases ok with
  | false =>
    cases h
    rcases prepareWrite_cases h1 with ⟨_, k, rfl⟩ | ⟨hx, _⟩
    · rfl
    · cases hx
  | true =>
    simp only [Bool.true_eq_false, if_false] at h
    split at h
    · cases h
    obtain ⟨_, _, h⟩ := Res.bind_eq_ok.mp h
    cases h

theorem RawInv.step {e : Env} {z : Cz} {g g' : Gx} {c : Call} (h : RawInv g) (hf : Fine g) (hkc : c.keysOk)
    (hs : step e z g c = .ok g') : RawInv g' := by
  by_cases hk : RawMode g.mode
  · have hwr := hk.writing
    have hno : g.mode ≠ .notOpen := by rintro hx; rw [hx] at hwr; exact absurd hwr (by decide)
    rcases h hk with h0 | ⟨m, d, rs, l, h1, h2, h3⟩
    · exact fun hk' => Or.inl ((NoCur.step (fun _ => h0) hwr hf.ph e z c).of_ok hs hk'.writing)
    by_cases hb : c.between
    · intro hk'
      refine Or.inr ?_
      rcases h1.between hk hb hs with ⟨x1, _⟩ | x
      · refine ⟨m, d, rs, l, x1, ?_, h3⟩
        rcases hb with hq | ⟨ids, rfl⟩
        · have haf : AftOk g := fun he => absurd he hwr.ne
          rcases (step_tame e z g c hq haf).of_ok hs with ht | ⟨ht, _⟩
          · exact absurd hk'.writing ht.notWrite.2
          · exact h2.ses ht
        · obtain ⟨b, hs⟩ := stateOf_ok hs
          exact (h2.setDomain ids).of_ok hs
      · exact absurd hk'.writing x.notWrite.2
    by_cases hst : c.begins = true
    · exact fun _ => Or.inl (starts_refused hst hwr hs)
    cases c with
    | rawStart => exact absurd rfl hst
    | rawStartBounds => exact absurd rfl hst
    | mapStart => exact absurd rfl hst
    | strStart => exact absurd rfl hst
    | setDomain ids => exact absurd (Or.inr ⟨ids, rfl⟩) hb
    | writeRaw k v =>
      obtain ⟨b, hs⟩ := stateOf_ok hs
      have hkk : ∀ x ∈ k, KeyOk x := hkc
      obtain ⟨_, _, _, _, _, _, y1, _⟩ := h1.writeRaw hk (fun x hx => (hkk x hx).1) hs
      refine fun _ => Or.inr ⟨m, d, _, _, y1, ?_, ?_⟩
      · rw [dataWriteRaw_raw hk] at hs
        exact DomsOk.doWrite hs (h2.congr rfl rfl)
      · intro r hr
        split at hr
        · rcases List.mem_append.mp hr with hr | hr
          · exact h3 r hr
          · rw [List.mem_singleton.mp hr]
            exact hkk
        · exact h3 r hr
    | writeMap k v =>
      obtain ⟨b, hs⟩ := stateOf_ok hs
      unfold dataWriteMap at hs
      rw [if_neg (fun hx => by rw [hx, rawMode_fam] at hk; cases hk)] at hs
      rcases chk_cases g [.wMap] with ⟨hm', hcc⟩ | ⟨hm', hcc⟩
      · rw [List.mem_singleton.mp hm', rawMode_fam] at hk
        cases hk
      · simp only [hcc, if_true] at hs
        cases hs
        exact h.congr rfl rfl rfl
    | writeStr k v =>
      obtain ⟨b, hs⟩ := stateOf_ok hs
      unfold dataWriteStr at hs
      rw [if_neg (fun hx => by rw [hx, rawMode_fam] at hk; cases hk)] at hs
      rcases chk_cases g [.wStr] with ⟨hm', hcc⟩ | ⟨hm', hcc⟩
      · rw [List.mem_singleton.mp hm', rawMode_fam] at hk
        cases hk
      · simp only [hcc, if_true] at hs
        cases hs
        exact h.congr rfl rfl rfl
    | writeDone =>
      obtain ⟨b, hs⟩ := stateOf_ok hs
      refine .not fun hx => ?_
      rw [show g'.mode = _ from (Props.dataWriteDone_mode hwr).of_ok hs, rawMode_fam] at hx
      cases hx
    | openWrite n i p k =>
      obtain ⟨b, hs⟩ := stateOf_ok hs
      unfold openWriteEx at hs
      rw [if_pos hno] at hs
      cases hs
      exact h
    | openRead d m =>
      obtain ⟨b, hs⟩ := stateOf_ok hs
      rcases (openReadXX_mode z g d m).of_ok hs with ⟨_, hx, _⟩ | ⟨hx, _⟩
      · have hx : g' = g := hx
        rw [hx]; exact h
      · exact absurd hx hno
    | openAppend d p =>
      obtain ⟨b, hs⟩ := stateOf_ok hs
      unfold openAppend at hs
      obtain ⟨⟨g1, r⟩, h1, hs⟩ := Res.bind_eq_ok.mp hs
      rcases (openReadXX_mode z _ d 0).of_ok h1 with ⟨_, hx, hy⟩ | ⟨hx, _⟩
      · have hx : g1 = { g with producer2 := p, appendActive := true } := hx
        have hy : r.1 = false := hy
        simp only [hy, if_true] at hs
        subst hx
        cases hs
        exact h.congr rfl rfl rfl
      · exact absurd hx hno
    | close =>
      obtain ⟨b, hs⟩ := stateOf_ok hs
      refine .not fun hx => ?_
      rw [show g'.mode = _ from (gdxClose_mode z g).of_ok hs, rawMode_fam] at hx
      cases hx
    | _ => exact absurd (Or.inl rfl) hb
  · by_cases hst : c.begins = true
    · cases c with
      | rawStart n t d ty ui =>
        obtain ⟨b, hs⟩ := stateOf_ok hs
        cases b with
        | false => exact .not (by rw [rawStart_no hs]; exact hk)
        | true =>
          obtain ⟨_, _, syms, _, y2⟩ := Sess.rawStart hs
          exact fun _ => Or.inr ⟨_, _, _, _, y2, rawStart_bits hs, by simp⟩
      | rawStartBounds n t d ty ui bs =>
        obtain ⟨b, hs⟩ := stateOf_ok hs
        cases b with
        | false => exact .not (by rw [rawStartBounds_no hs]; exact hk)
        | true =>
          obtain ⟨_, _, syms, _, y2⟩ := Sess.rawStartBounds hs
          exact fun _ => Or.inr ⟨_, _, _, _, y2, rawStartBounds_bits hs, by simp⟩
      | mapStart n t d ty ui =>
        have hu : g.mode = .wInit → g.uel.isSome = true := fun hm => (hf.inv.head (hf.stat hm)).tabs.uel
        obtain ⟨b, hs⟩ := stateOf_ok hs
        cases b with
        | false => exact .not (by rw [mapStart_no hs]; exact hk)
        | true =>
          obtain ⟨_, y1, _⟩ := Coll.mapStart hs hu
          exact .not (by rw [rawMode_fam, mapMode_fam.mp y1]; decide)
      | strStart n t d ty ui =>
        have hu : g.mode = .wInit → g.uel.isSome = true := fun hm => (hf.inv.head (hf.stat hm)).tabs.uel
        obtain ⟨b, hs⟩ := stateOf_ok hs
        cases b with
        | false => exact .not (by rw [strStart_no hs]; exact hk)
        | true =>
          obtain ⟨_, y1, _⟩ := Coll.strStart hs hu
          exact .not (by rw [rawMode_fam, strMode_fam.mp y1]; decide)
      | _ => cases hst
    · refine .not fun hx => hk ?_
      rw [rawMode_fam] at hx ⊢
      rcases (Fam.step (a := fam g.mode) (Or.inl rfl) hf.ph e z c (by simpa using hst)).of_ok hs with h1 | h1
      · rwa [h1] at hx
      · rw [h1] at hx
        cases hx

theorem RawInv.run {e : Env} {z : Cz} (hz : z.Good) {g0 : Gx} (hf0 : Fine g0) {cs : List Call} (hc : ∀ c ∈ cs, c.WF) (ho : OpensOwn z cs)
    (hk : ∀ c ∈ cs, c.keysOk) (h : RawInv g0) {g : Gx} (hs : Gdx.run e z g0 cs = .ok g) : RawInv g := by
  induction cs generalizing g0 with
  | nil => cases hs; exact h
  | cons c cs ih =>
    unfold Gdx.run at hs
    obtain ⟨g1, h1, hs⟩ := Res.bind_eq_ok.mp hs
    have hf1 : Fine g1 := Fine.run hz (cs := [c]) (by simpa using hc c (List.mem_cons_self ..))
      (fun x hx => ho x (by rw [List.mem_singleton.mp hx]; exact List.mem_cons_self ..)) hf0 (run_one h1)
    exact ih hf1 (fun x hx => hc x (List.mem_cons_of_mem _ hx)) (fun x hx => ho x (List.mem_cons_of_mem _ hx))
      (fun x hx => hk x (List.mem_cons_of_mem _ hx)) (h.step hf0 (hk c (List.mem_cons_self ..)) h1) hs

end Gdx
