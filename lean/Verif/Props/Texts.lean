import Verif.Proofs.SymInv

/-!
C33: set texts are stored once and returned under their number. C52: node numbers of texts.
-/

namespace Gdx.Props

open Gdx Gdx.Spec

/-- what is stored for a text (gxfile.cpp:2146-2148): at most 255 bytes, normalised (C34) -/
def normText (t : Str) : Str := makeGoodExplText (t.take 255)

/-- all texts differ -/
def TextsOk (g : Gx) : Prop := ∀ l, g.texts = some l → (l.map Prod.fst).Nodup

theorem distinct_nodup {l : List Str} : Distinct true l ↔ l.Nodup := by
  unfold Distinct List.Nodup SameName
  simp

theorem TextsOk.prim : ∀ a b, Prim .all a b → TextsOk a → TextsOk b := by
  intro a b h hg
  cases h with
  | ctrl h _ _ => intro l hl; exact hg l (by rw [← show b.texts = a.texts from congrArg Core.texts h]; exact hl)
  | text l s h hn _ =>
    intro l' hl'
    cases hl'
    rw [List.map_append]
    exact distinct_nodup.mp ((distinct_nodup.mpr (hg l h)).append hn)
  | node l n x h h0 =>
    intro l' hl'
    cases hl'
    rw [map_fst_modify]
    exact hg l h
  | _ => exact hg
where
  map_fst_modify {l : List (Str × Int)} {n : Nat} {x : Int} :
      (l.modify n fun e => (e.1, x)).map Prod.fst = l.map Prod.fst := by
    apply List.ext_getElem?
    intro i
    rw [List.getElem?_map, List.getElem?_modify, List.getElem?_map]
    cases l[i]? with
    | none => rfl
    | some e => simp only [Option.map_some]; split <;> rfl

theorem TextsOk.openWrite (e : Env) (g : Gx) (n : Bool) (i : Int) (p : Str) (c : Int) (hg : TextsOk g) :
    (openWriteEx e g n i p c).All fun x => TextsOk x.1 := by
  unfold openWriteEx
  split
  · exact hg
  split
  · exact hg
  split
  · exact hg
  refine Res.All.bind' ?_
  intro h _ l hl
  cases hl
  simp

theorem TextsOk.new : TextsOk Gx.new := by intro l hl; cases hl

theorem TextsOk.run (e : Env) (z : Cz) (cs : List Call) (g : Gx) (hc : ∀ c ∈ cs, c.WF) (ha : Aft g) (h : TextsOk g)
    (ho : OpensOk TextsOk e z g cs) : (run e z g cs).All fun g' => Aft g' ∧ TextsOk g' :=
  run_inv TextsOk.prim (fun _ _ _ h => h) (fun _ _ u hu => by cases hu) (fun _ _ _ _ _ h => h) (fun _ h => h)
    TextsOk.openWrite e z cs g hc ha h ho

/-- the texts of `l` are in the table under the same numbers; node numbers other than 0 are kept -/
def TextsKeep (l : List (Str × Int)) (g : Gx) : Prop := ∀ l', g.texts = some l' → ∀ (n : Nat) (t : Str) (d : Int),
  l[n]? = some (t, d) → ∃ d', l'[n]? = some (t, d') ∧ (d ≠ 0 → d' = d)

theorem TextsKeep.prim (x : List (Str × Int)) : ∀ a b, Prim .all a b → TextsKeep x a → TextsKeep x b := by
  intro a b h hg
  cases h with
  | ctrl h _ _ => intro l hl; exact hg l (by rw [← show b.texts = a.texts from congrArg Core.texts h]; exact hl)
  | text l s h hn _ =>
    intro l' hl' n t d hd
    cases hl'
    obtain ⟨d', h1, h2⟩ := hg l h n t d hd
    exact ⟨d', by rw [List.getElem?_append_left (List.getElem?_eq_some_iff.mp h1).1]; exact h1, h2⟩
  | node l m x h h0 =>
    intro l' hl' n t d hd
    cases hl'
    obtain ⟨d', h1, h2⟩ := hg l h n t d hd
    rw [List.getElem?_modify, h1]
    by_cases hnm : m = n
    · subst hnm
      rw [h1] at h0
      simp only [Option.map_some, Option.some.injEq] at h0
      refine ⟨x, by simp, fun hd => absurd ((h2 hd).symm.trans h0) hd⟩
    · exact ⟨d', by simp [hnm], h2⟩
  | _ => exact hg

/-- C33: adding a text gives a number under which the (normalised) text is returned -/
theorem C33_number (g g' : Gx) (t : Str) (n : Int) (h : addSetText g t = (g', (true, n))) :
    ∃ d, getElemText g' n = (true, normText t, d) := by
  unfold addSetText at h
  split at h
  · cases h
  · rename_i l hl
    simp only at h
    split at h
    · rename_i k hk
      simp only [Prod.mk.injEq, true_and] at h
      obtain ⟨rfl, rfl⟩ := h
      obtain ⟨x, hx, hs⟩ := lookup_some hk
      rw [List.getElem?_map] at hx
      obtain ⟨p, hp, rfl⟩ := Option.map_eq_some_iff.mp hx
      refine ⟨p.2, ?_⟩
      unfold getElemText
      rw [hl]
      simp only
      rw [if_pos (by omega), Int.toNat_natCast, hp]
      simp only [SameName, if_true] at hs
      show (true, p.1, p.2) = _
      rw [hs]
      rfl
    · simp only [Prod.mk.injEq, true_and] at h
      obtain ⟨rfl, rfl⟩ := h
      refine ⟨0, ?_⟩
      unfold getElemText
      simp only
      rw [if_pos (by omega), Int.toNat_natCast, List.getElem?_append_right (Nat.le_refl _)]
      simp [normText]

/-- C33: adding texts is possible exactly when there is a text table (while a file is open) -/
theorem C33_accept (g : Gx) (t : Str) : (addSetText g t).2.1 = g.texts.isSome := by
  unfold addSetText
  cases hl : g.texts with
  | none => rfl
  | some l =>
    simp only
    split <;> rfl

theorem getElemText_ok {g : Gx} {n : Int} {t : Str} {d : Int} :
    getElemText g n = (true, t, d) ↔ ∃ l, g.texts = some l ∧ 0 ≤ n ∧ l[n.toNat]? = some (t, d) := by
  unfold getElemText
  cases hl : g.texts with
  | none => simp
  | some l =>
    simp only [Option.some.injEq, exists_eq_left']
    by_cases hn : 0 ≤ n
    · rw [if_pos hn]
      cases hs : l[n.toNat]? with
      | none => simp
      | some p => obtain ⟨a, b⟩ := p; simp [hn]
    · rw [if_neg hn]
      simp [hn]

theorem getElemText_keep {g g' : Gx} (h : ∀ l, g.texts = some l → TextsKeep l g') (ho : g'.texts.isSome = true) {n : Int}
    {t : Str} {d : Int} (hd : getElemText g n = (true, t, d)) :
    ∃ d', getElemText g' n = (true, t, d') ∧ (d ≠ 0 → d' = d) := by
  obtain ⟨l', hl'⟩ := Option.isSome_iff_exists.mp ho
  obtain ⟨l, hl, hn, hs⟩ := getElemText_ok.mp hd
  obtain ⟨d', h1, h2⟩ := h l hl l' hl' _ _ _ hs
  exact ⟨d', getElemText_ok.mpr ⟨l', hl', hn, h1⟩, h2⟩

theorem TextsKeep.refl (g : Gx) (l : List (Str × Int)) (h : g.texts = some l) : TextsKeep l g := by
  intro l2 h2 k s d hd
  rw [h] at h2
  cases h2
  exact ⟨d, hd, fun _ => rfl⟩

/-- C33 over histories: numbers handed out keep their text, as long as the file is open -/
theorem C33_stable (e : Env) (z : Cz) (cs : List Call) (g g' : Gx) (hc : NoOpen cs) (ha : Aft g)
    (hg : run e z g cs = .ok g') (ho : g'.texts.isSome = true) (n : Int) (t : Str) (d : Int)
    (h : getElemText g n = (true, t, d)) : ∃ d', getElemText g' n = (true, t, d') ∧ (d ≠ 0 → d' = d) :=
  getElemText_keep (fun l hl => (run_noOpen (P := TextsKeep l) (TextsKeep.prim l) (fun _ _ _ h => h)
    (fun _ _ l hl => by cases hl) (fun _ _ _ _ _ h => h) (fun _ h => h) e z cs g hc ha
    (TextsKeep.refl g l hl)).of_ok hg) ho h

theorem getElemText_inj {g : Gx} (hg : TextsOk g) {n m : Int} {t : Str} {d d' : Int}
    (h1 : getElemText g n = (true, t, d)) (h2 : getElemText g m = (true, t, d')) : n = m := by
  obtain ⟨l, hl, hn, hs⟩ := getElemText_ok.mp h1
  obtain ⟨l', hl', hm, hs'⟩ := getElemText_ok.mp h2
  rw [hl] at hl'
  cases hl'
  have := (distinct_nodup.mpr (hg l hl)).eq (i := n.toNat) (j := m.toNat) (a := t) (b := t)
    (by rw [List.getElem?_map, hs]; rfl) (by rw [List.getElem?_map, hs']; rfl) (sameName_refl _ _)
  omega

/-- C33 over histories: two texts added at any two moments while the file is open get the same number exactly when they are
    equal after normalisation -/
theorem C33_same (e : Env) (z : Cz) (cs : List Call) (hc : NoOpen cs) (g g1 g2 g3 : Gx) (hg : TextsOk g) (ha : Aft g)
    (a b : Str) (n m : Int) (h1 : addSetText g a = (g1, (true, n)))
    (h2 : run e z g1 cs = .ok g2) (h3 : addSetText g2 b = (g3, (true, m))) : n = m ↔ normText a = normText b := by
  obtain ⟨d1, k1⟩ := C33_number g g1 a n h1
  obtain ⟨d3, k3⟩ := C33_number g2 g3 b m h3
  have ev1 : Evo .all g g1 := by
    have := addSetText_evo .all trivial g a
    rw [h1] at this
    exact this
  have ev3 : Evo .all g2 g3 := by
    have := addSetText_evo .all trivial g2 b
    rw [h3] at this
    exact this
  have ok1 : TextsOk g1 := ev1.inv TextsOk.prim hg
  have af1 : Aft g1 := ev1.inv prim_aft ha
  have ok2 : TextsOk g2 := (run_noOpen TextsOk.prim (fun _ _ _ h => h) (fun _ _ l hl => by cases hl)
    (fun _ _ _ _ _ h => h) (fun _ h => h) e z cs g1 hc af1 ok1).of_ok h2
  have ok3 : TextsOk g3 := ev3.inv TextsOk.prim ok2
  have some2 : g2.texts.isSome = true := by
    have := C33_accept g2 b
    rw [h3] at this
    exact this.symm
  have some3 : g3.texts.isSome = true := by
    obtain ⟨l, hl, _⟩ := getElemText_ok.mp k3
    rw [hl]
    rfl
  obtain ⟨d2, k2, _⟩ := C33_stable e z cs g1 g2 hc af1 h2 some2 n _ d1 k1
  obtain ⟨d4, k4, _⟩ := getElemText_keep (g := g2) (g' := g3)
    (fun l hl => ev3.inv (TextsKeep.prim l) (TextsKeep.refl g2 l hl)) some3 k2
  constructor
  · rintro rfl
    rw [k3] at k4
    simp only [Prod.mk.injEq, true_and] at k4
    exact k4.1.symm
  · intro hab
    rw [hab] at k4
    exact getElemText_inj ok3 k4 k3

/-- number 0 is the empty text -/
def ZeroEmpty (g : Gx) : Prop := ∀ l, g.texts = some l → l[0]?.map Prod.fst = some []

theorem ZeroEmpty.prim : ∀ a b, Prim .all a b → ZeroEmpty a → ZeroEmpty b := by
  intro a b h hg
  cases h with
  | ctrl h _ _ => intro l hl; exact hg l (by rw [← show b.texts = a.texts from congrArg Core.texts h]; exact hl)
  | text l s h hn _ =>
    intro l' hl'
    cases hl'
    obtain ⟨x, hx, hx'⟩ := Option.map_eq_some_iff.mp (hg l h)
    rw [List.getElem?_append_left (List.getElem?_eq_some_iff.mp hx).1, hx, ← hx']
    rfl
  | node l n x h h0 =>
    intro l' hl'
    cases hl'
    obtain ⟨x, hx, hx'⟩ := Option.map_eq_some_iff.mp (hg l h)
    rw [List.getElem?_modify, hx, ← hx']
    by_cases h : n = 0
    · subst h; rfl
    · simp [h]
  | _ => exact hg

theorem ZeroEmpty.openWrite (e : Env) (g : Gx) (n : Bool) (i : Int) (p : Str) (c : Int) (hg : ZeroEmpty g) :
    (openWriteEx e g n i p c).All fun x => ZeroEmpty x.1 := by
  unfold openWriteEx
  split
  · exact hg
  split
  · exact hg
  split
  · exact hg
  refine Res.All.bind' ?_
  intro h _ l hl
  cases hl
  rfl

/-- C33: in every object a history leads to (opened files must have it), all texts are different and number 0 is the empty
    text -/
theorem C33_table (e : Env) (z : Cz) (cs : List Call) (hc : ∀ c ∈ cs, c.WF)
    (ho : OpensOk (fun g => TextsOk g ∧ ZeroEmpty g) e z Gx.new cs) (g : Gx) (hg : run e z Gx.new cs = .ok g) :
    (∀ (n m : Int) (t : Str) (d d' : Int), getElemText g n = (true, t, d) → getElemText g m = (true, t, d') → n = m) ∧
      (g.texts.isSome = true → ∃ d, getElemText g 0 = (true, [], d)) := by
  have h := ((run_inv (P := fun g => TextsOk g ∧ ZeroEmpty g)
    (fun a b h hg => ⟨TextsOk.prim a b h hg.1, ZeroEmpty.prim a b h hg.2⟩) (fun _ _ _ h => h)
    (fun _ _ => ⟨fun u hu => (by cases hu), fun u hu => (by cases hu)⟩) (fun _ _ _ _ _ h => h) (fun _ h => h)
    (fun e g n i p c h => (TextsOk.openWrite e g n i p c h.1).and (ZeroEmpty.openWrite e g n i p c h.2))
    e z cs Gx.new hc aft_new ⟨TextsOk.new, fun u hu => (by cases hu)⟩ ho).of_ok hg).2
  refine ⟨fun n m t d d' h1 h2 => getElemText_inj h.1 h1 h2, ?_⟩
  intro ho
  obtain ⟨l, hl⟩ := Option.isSome_iff_exists.mp ho
  obtain ⟨x, hx, hx'⟩ := Option.map_eq_some_iff.mp (h.2 l hl)
  exact ⟨x.2, getElemText_ok.mpr ⟨l, hl, by omega, by rw [← hx']; exact hx⟩⟩

/-- texts "a", "b", "a" again, "" -/
example : after [.openWrite false 0 [] 0, .addSetText [97], .addSetText [98]] (fun g =>
    .ok ((addSetText g [97]).2, (addSetText g [98]).2, (addSetText g []).2, (addSetText g [99]).2)) =
    .ok ((true, 1), (true, 2), (true, 0), (true, 3)) := by decide +kernel

/-! ### C52 -/

/-- C52: gdxSetTextNodeNr succeeds exactly when the text number is valid and its node number is still 0 (none). Then
    gdxGetElemText returns that node number with the same text, otherwise nothing changes; other texts are not affected. -/
theorem C52_set (g g' : Gx) (n x : Int) (b : Bool) (h : setTextNodeNr g n x = (g', b)) :
    (b = true ↔ ∃ t, getElemText g n = (true, t, 0)) ∧ (b = false → g' = g) ∧
      (∀ t, b = true → getElemText g n = (true, t, 0) → getElemText g' n = (true, t, x)) ∧
      ∀ m, m ≠ n → getElemText g' m = getElemText g m := by
  unfold setTextNodeNr at h
  split at h
  · rename_i hl
    cases h
    refine ⟨⟨fun h => Bool.noConfusion h, ?_⟩, fun _ => rfl, fun _ h => Bool.noConfusion h, fun _ _ => rfl⟩
    rintro ⟨t, ht⟩
    obtain ⟨l, hl', _⟩ := getElemText_ok.mp ht
    rw [hl] at hl'
    cases hl'
  · rename_i l hl
    split at h
    · rename_i hn
      cases h
      obtain ⟨p, hp, hp'⟩ := Option.map_eq_some_iff.mp hn.2.2
      refine ⟨⟨fun _ => ⟨p.1, getElemText_ok.mpr ⟨l, hl, hn.1, by rw [hp, ← hp']⟩⟩, fun _ => rfl⟩, fun h => Bool.noConfusion h,
        ?_, ?_⟩
      · intro t _ ht
        obtain ⟨l', hl', _, hs⟩ := getElemText_ok.mp ht
        rw [hl] at hl'
        cases hl'
        refine getElemText_ok.mpr ⟨_, rfl, hn.1, ?_⟩
        rw [List.getElem?_modify, hs]
        simp
      · intro m hm
        unfold getElemText
        rw [hl]
        simp only
        by_cases h0 : 0 ≤ m
        · have : n.toNat ≠ m.toNat := by omega
          rw [if_pos h0, if_pos h0, List.getElem?_modify]
          simp only [this, if_false]
          cases l[m.toNat]? <;> rfl
        · rw [if_neg h0, if_neg h0]
    · rename_i hn
      cases h
      refine ⟨⟨fun h => Bool.noConfusion h, ?_⟩, fun _ => rfl, fun _ h => Bool.noConfusion h, fun _ _ => rfl⟩
      rintro ⟨t, ht⟩
      obtain ⟨l', hl', h0, hs⟩ := getElemText_ok.mp ht
      rw [hl] at hl'
      cases hl'
      have := (List.getElem?_eq_some_iff.mp hs).1
      exact absurd ⟨h0, by omega, by rw [hs]; rfl⟩ hn

/-- C52 over histories: a node number other than 0 stays, as long as the file is open -/
theorem C52_once (e : Env) (z : Cz) (cs : List Call) (g g' : Gx) (hc : NoOpen cs) (ha : Aft g)
    (hg : run e z g cs = .ok g') (ho : g'.texts.isSome = true) (n : Int) (t : Str) (d : Int) (hd : d ≠ 0)
    (h : getElemText g n = (true, t, d)) : getElemText g' n = (true, t, d) := by
  obtain ⟨d', h1, h2⟩ := C33_stable e z cs g g' hc ha hg ho n t d h
  rw [h1, h2 hd]

/-- the node of text 1 is set to 5; setting it again or for an unknown number fails -/
example : after [.openWrite false 0 [] 0, .addSetText [97], .setTextNodeNr 1 5] (fun g =>
    .ok [(setTextNodeNr g 1 6).2, (setTextNodeNr g 2 6).2, (setTextNodeNr g 0 6).2, getElemText g 1 == (true, [97], 5)]) =
    .ok [false, false, true, true] := by decide +kernel

end Gdx.Props
