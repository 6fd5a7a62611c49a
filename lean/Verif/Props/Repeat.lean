import Verif.Props.Append
import Verif.Props.Again

/-!
C48: a file does not depend on what the object that writes it did before.
-/

namespace Gdx.Props

open Gdx

/-- opening a file for writing: two objects with nothing open and the same settings for domains are alike from then on -/
theorem openWrite_twin {e : Env} {a b a1 b1 : Gx} {pr : Str} {c : Int} {x y : Int} (hs : a.storeDom = b.storeDom) (hb : a.allowBogus = b.allowBogus)
    (h1 : openWriteEx e a false 0 pr c = .ok (a1, (true, x))) (h2 : openWriteEx e b false 0 pr c = .ok (b1, (true, y))) :
    Twin True True False (fun x y _ => x = y) a1 b1 := by
  unfold openWriteEx at h1 h2
  split at h1
  · cases h1
  split at h2
  · cases h2
  rw [if_neg (by decide), if_neg (by decide)] at h1 h2
  obtain ⟨h, e1, h1⟩ := Res.bind_eq_ok.mp h1
  obtain ⟨h', e2, h2⟩ := Res.bind_eq_ok.mp h2
  rw [e1] at e2
  cases e2
  cases h1
  cases h2
  refine ⟨⟨?_, Or.inl trivial, ⟨rfl, fun _ => rfl⟩, rfl, .nil, .nil, rfl, False.elim⟩, fun h => ?_, fun h => ?_, fun h => ?_, fun h => ?_⟩
  · show Gx.sh _ = Gx.sh _
    simp only [Gx.sh, Gx.put, Gx.initErrors, Gx.dropCur, hs, hb]
  · exact absurd h (show Mode.wInit ∉ _ by decide)
  · rcases h with h | h <;> exact absurd h (show Mode.wInit ≠ _ by decide)
  · rcases h with h | h <;> exact absurd h (show Mode.wInit ≠ _ by decide)
  · exact absurd h (show Mode.wInit ∉ _ by decide)

/-- the calls of a writing session that do not refer to the state before it: all calls that write, except that a comment for "the
    current symbol" (number 0 or less) needs one -/
def SelfContained (ds : List Call) : Prop := twinCalls True True False ds

theorem twin_close {z : Cz} {a b hB : Gx} {k : Int} (hA : Aft b) (h : Twin True True False (fun x y _ => x = y) a b) (hb : gdxClose z b = .ok (hB, k)) :
    ∃ hA, gdxClose z a = .ok (hA, k) ∧ hA.file = hB.file := by
  have puts : Puts fun (x y : List UInt8) (_ : Int) => x = y := by
    rintro x y n bs _ rfl
    rfl
  by_cases hm : b.mode ∈ [Mode.wInit, .wRaw, .wMap, .wStr]
  · rcases close_sim puts (G := fun x y => x = y) z (M := b.majorPos) (by rintro x y n t rfl; rfl) hA rfl hm h _ hb with hl | ⟨⟨gA, kA⟩, h1, h2, h3⟩
    · exact absurd trivial hl.1
    · cases h3
      exact ⟨gA, h1, h2⟩
  · simp only [List.mem_cons, List.not_mem_nil, or_false, not_or] at hm
    obtain ⟨m1, m2, m3, m4⟩ := hm
    have hma := h.half.mode
    have ho : a.opened = b.opened := (by have := congrArg Gx.opened h.half.sh; exact this)
    have idle : ∀ g : Gx, g.mode = b.mode → gdxClose z g = .ok (g.freeAll, if g.opened then 0 else 1) := by
      intro g hg
      unfold gdxClose finishWrite saveIf
      rw [hg, if_neg (by tauto)]
      simp only [Res.bind_ok]
      rw [hg, if_neg m1]
      rfl
    rw [idle b rfl] at hb
    cases hb
    exact ⟨a.freeAll, by rw [idle a hma, ho], h.half.file⟩

/-- C48 (partial): two objects without an open file and with the same settings for domains - whatever they did before - write the same file
    when the same calls are made. -/
theorem C48_same_partial {e : Env} {z : Cz} {a b a1 b1 bB hB : Gx} {k x y c : Int} {pr : Str} {ds : List Call} (ha : Aft b)
    (hs : a.storeDom = b.storeDom) (hb : a.allowBogus = b.allowBogus)
    (h1 : openWriteEx e a false 0 pr c = .ok (a1, (true, x))) (h2 : openWriteEx e b false 0 pr c = .ok (b1, (true, y)))
    (hd : ∀ c ∈ ds, c.WF) (hc : SelfContained ds) (hr : run e z b1 ds = .ok bB) (hcl : gdxClose z bB = .ok (hB, k)) :
    ∃ aB hA, run e z a1 ds = .ok aB ∧ aB.mode = bB.mode ∧ aB.errCnt = bB.errCnt ∧ gdxClose z aB = .ok (hA, k) ∧ hA.file = hB.file := by
  have puts : Puts fun (x y : List UInt8) (_ : Int) => x = y := by
    rintro x y n bs _ rfl
    rfl
  have ha1 : Aft b1 := by
    unfold openWriteEx at h2
    split at h2
    · cases h2
    rw [if_neg (by decide), if_neg (by decide)] at h2
    obtain ⟨h, -, h2⟩ := Res.bind_eq_ok.mp h2
    cases h2
    exact ha
  rcases run_twin puts e z ds hd hc ha1 (openWrite_twin hs hb h1 h2) bB hr with hl | ⟨aB, h3, h4⟩
  · exact absurd trivial hl.1
  · have hin := twinCalls_inFile _ _ hc
    obtain ⟨haB, -⟩ := (run_inFile (P := fun _ => True) (fun _ _ _ _ => trivial) (fun _ _ _ _ _ _ => trivial) (fun _ _ => trivial) e z ds b1 hd hin ha1 trivial).of_ok hr
    obtain ⟨hA, h5, h6⟩ := twin_close haB h4 hcl
    exact ⟨aB, hA, h3, h4.half.mode, (by have := congrArg Gx.errCnt h4.half.sh; exact this), h5, h6⟩

/-- an object that has written one file and then read it, compared with a new one: both write the same second file -/
example : after [.openWrite false 0 [65] 0, .strStart [105] [115] 1 0 0, .writeStr [[97]] [Dbl.zero], .writeDone, .close] (fun g => do
      let g ← run ⟨[]⟩ Cz.id g [.openRead (.content g.file) 0, .readMapStart 1, .readDone, .close]
      let a ← run ⟨[]⟩ Cz.id g (.openWrite false 0 [66] 0 :: exApp1 ++ exApp2 ++ [.close])
      let b ← run ⟨[]⟩ Cz.id Gx.new (.openWrite false 0 [66] 0 :: exApp1 ++ exApp2 ++ [.close])
      pure (decide (a.file = b.file ∧ 300 < a.file.length))) = .ok true := by decide +kernel

example : SelfContained (exApp1 ++ exApp2) := by simp [SelfContained, exApp1, exApp2, twinCalls, Call.twin]

/-- without the same settings the files differ -/
theorem C48_settings_counterexample :
    after [.storeDomainSets false, .openWrite false 0 [65] 0, .close] (fun g => do
      let ds := [.openWrite false 0 [65] 0, .rawStart [105] [] 1 0 0, .writeRaw [1] [Dbl.zero], .writeDone, .rawStart [112] [] 1 1 0, .setDomain [[105]],
        .writeRaw [2] [Dbl.one], .writeDone, .close]
      let a ← run ⟨[]⟩ Cz.id g ds
      let b ← run ⟨[]⟩ Cz.id Gx.new ds
      pure (decide (a.file = b.file))) = .ok false := by decide +kernel

end Gdx.Props
