import Verif.Model.Password
import Verif.Proofs.PFile

/-! C39: password scrambling. -/

namespace Gdx.Props
open Gdx

/-- the history never seeks behind the end of the file and the file stays below 2 GiB -/
def SmallNoGap : PFile → List SOp → Prop
  | f, [] => f.bytes.length ≤ 2147483647
  | f, o :: os =>
    (match o with
     | .seek p => p ≤ f.bytes.length
     | _ => True) ∧ f.bytes.length ≤ 2147483647 ∧ SmallNoGap (f.step o).2 os

/-! proof -/

/-- key byte for the file position `k` -/
def pwKey (pw : Str) (k : Nat) : UInt8 := (pw[k % pw.length + 1]?).getD 0

def scram (pw : Str) (k : Nat) : List UInt8 → List UInt8
  | [] => []
  | c :: cs => (c ^^^ pwKey pw k) :: scram pw (k + 1) cs

theorem scram_length (pw : Str) (k : Nat) (l : List UInt8) : (scram pw k l).length = l.length := by
  induction l generalizing k with
  | nil => rfl
  | cons c cs ih => simp [scram, ih]

theorem scram_getElem? (pw : Str) (k : Nat) (l : List UInt8) (i : Nat) :
    (scram pw k l)[i]? = (l[i]?).map (· ^^^ pwKey pw (k + i)) := by
  induction l generalizing k i with
  | nil => rfl
  | cons c cs ih =>
    cases i with
    | zero => simp [scram]
    | succ i => simp [scram, ih, Nat.add_assoc, Nat.add_comm 1 i]

theorem scram_scram (pw : Str) (k : Nat) (l : List UInt8) : scram pw k (scram pw k l) = l := by
  induction l generalizing k with
  | nil => rfl
  | cons c cs ih => simp [scram, ih, UInt8.xor_assoc]

theorem pwAt_ok (pw : Str) (i : Nat) (h : i ≤ pw.length) : pwAt pw i = .ok ((pw[i]?).getD 0) := by
  unfold pwAt
  rw [if_neg (by omega)]
  split
  · rename_i h1
    have : i = pw.length := by exact_mod_cast h1
    simp [this]
  · rename_i h1
    have : i < pw.length := by
      have : i ≠ pw.length := fun e => h1 (by simp [e])
      omega
    simp [List.getElem?_eq_getElem this]

theorem applyLoop_eq (pw : Str) (hp : pw ≠ []) (k : Nat) (nxt : Nat) (l : List UInt8)
    (h : (if nxt + 1 > pw.length then 1 else nxt + 1) = k % pw.length + 1) :
    applyLoop pw nxt l = .ok (scram pw k l) := by
  have hL : 0 < pw.length := List.length_pos_iff.mpr hp
  induction l generalizing k nxt with
  | nil => rfl
  | cons c cs ih =>
    have hk : k % pw.length < pw.length := Nat.mod_lt _ hL
    have hn : (if (nxt : Int) + 1 > pw.length then 1 else (nxt : Int) + 1) = ((k % pw.length + 1 : Nat) : Int) := by
      rw [← h]
      split
      · rw [if_pos (by omega)]; rfl
      · rw [if_neg (by omega)]; rfl
    unfold applyLoop
    simp only [hn]
    rw [pwAt_ok pw _ (by omega), ih (k + 1) (k % pw.length + 1)]
    · rfl
    · have e : (k + 1) % pw.length = if k % pw.length + 1 = pw.length then 0 else k % pw.length + 1 := by
        rw [Nat.add_mod]
        split
        · rename_i h1
          by_cases h2 : pw.length = 1
          · rw [h2, Nat.mod_one]
          · rw [Nat.mod_eq_of_lt (a := 1) (by omega), h1, Nat.mod_self]
        · rename_i h1
          by_cases h2 : pw.length = 1
          · omega
          · rw [Nat.mod_eq_of_lt (a := 1) (by omega), Nat.mod_eq_of_lt (by omega)]
      rw [e]
      split <;> split <;> omega

theorem applyPassWord_eq (pw : Str) (hp : pw ≠ []) (l : List UInt8) (k : Nat) (hk : k ≤ 2147483647) :
    applyPassWord pw l k = .ok (scram pw k l) := by
  have hL : 0 < pw.length := List.length_pos_iff.mpr hp
  unfold applyPassWord
  have h1 : toI32 (k % 4294967296) = (k : Int) := by
    unfold toI32
    rw [Nat.mod_eq_of_lt (by omega), if_pos (by omega)]
  have h2 : (k : Int).tmod (pw.length : Int) = ((k % pw.length : Nat) : Int) := by
    rw [Int.tmod_eq_emod_of_nonneg (by omega)]
    rfl
  rw [h1, h2]
  apply applyLoop_eq pw hp
  have hk : k % pw.length < pw.length := Nat.mod_lt _ hL
  rw [if_neg (by omega)]

theorem scram_splice (pw : Str) (f bs : List UInt8) (p : Nat) (h : p ≤ f.length) :
    scram pw 0 (splice f p bs) = splice (scram pw 0 f) p (scram pw p bs) := by
  apply List.ext_getElem?
  intro i
  rw [scram_getElem?, splice_getElem?, splice_getElem?, scram_length, scram_length]
  have hb : (scram pw p bs = []) ↔ bs = [] := by
    rw [← List.length_eq_zero_iff, scram_length, List.length_eq_zero_iff]
  by_cases h0 : bs = []
  · simp [h0, hb, scram_getElem?]
    simp [scram]
  · have h0' : ¬ (scram pw p bs = []) := by rw [hb]; exact h0
    simp only [if_neg h0, if_neg h0']
    by_cases h1 : i < p
    · simp only [if_pos h1, if_pos (show i < f.length by omega)]
      rw [scram_getElem?]
    · simp only [if_neg h1]
      split
      · rw [scram_getElem?]
        have : p + (i - p) = 0 + i := by omega
        rw [this]
      · rw [scram_getElem?]

theorem scram_drop_take (pw : Str) (f : List UInt8) (p n : Nat) :
    ((scram pw 0 f).drop p).take n = scram pw p ((f.drop p).take n) := by
  apply List.ext_getElem?
  intro i
  rw [scram_getElem?]
  by_cases h : i < n
  · rw [List.getElem?_take_of_lt h, List.getElem?_take_of_lt h, List.getElem?_drop, List.getElem?_drop, scram_getElem?]
    simp
  · rw [List.getElem?_eq_none (by simp; omega), List.getElem?_eq_none (by simp; omega)]
    rfl

theorem pwRun_sim (pw : Str) (hp : pw ≠ []) (ops : List SOp) (g : PFile) (hg : g.pos ≤ g.bytes.length)
    (hs : SmallNoGap g ops) :
    pwRun pw ⟨scram pw 0 g.bytes, g.pos⟩ ops =
      .ok ((g.run ops).1, ⟨scram pw 0 (g.run ops).2.bytes, (g.run ops).2.pos⟩) := by
  induction ops generalizing g with
  | nil => rfl
  | cons o os ih =>
    obtain ⟨h1, h2, h3⟩ := hs
    have hstep : pwStep pw ⟨scram pw 0 g.bytes, g.pos⟩ o =
        .ok ((g.step o).1, ⟨scram pw 0 (g.step o).2.bytes, (g.step o).2.pos⟩) ∧
        (g.step o).2.pos ≤ (g.step o).2.bytes.length := by
      cases o with
      | read n =>
        refine ⟨?_, ?_⟩
        · simp only [pwStep, if_neg hp, PFile.read, PFile.step]
          rw [applyPassWord_eq pw hp _ _ (by omega)]
          simp only [Res.bind_ok, scram_drop_take, scram_scram, scram_length]
        · simp [PFile.step, PFile.read]; omega
      | write bs =>
        refine ⟨?_, ?_⟩
        · simp only [pwStep, if_neg hp, PFile.write, PFile.step]
          rw [applyPassWord_eq pw hp _ _ (by omega)]
          simp only [Res.bind_ok, scram_length, scram_splice pw _ bs _ hg]
        · simp only [PFile.step, PFile.write, splice_length]
          split
          · rename_i h; subst h; simpa using hg
          · omega
      | seek p => exact ⟨rfl, h1⟩
      | getPos => exact ⟨rfl, hg⟩
    unfold pwRun PFile.run
    rw [hstep.1]
    simp only [Res.bind_ok]
    rw [ih _ hstep.2 h3]
    rfl

/-- C39: whatever the password, any history of reads, writes and seeks (in any pieces) on a file written with the
    password gives the same results as the same history on an unprotected file. (Seeks stay inside the file and the
    file below 2 GiB; see `C39_large_offset`.) -/
theorem C39_transparent_partial (pw : Str) (ops : List SOp) (h : SmallNoGap ⟨[], 0⟩ ops) :
    ∃ f', pwRun (setPassWord pw) ⟨[], 0⟩ ops = .ok ((PFile.run ⟨[], 0⟩ ops).1, f') := by
  by_cases hp : setPassWord pw = []
  · rw [hp]
    have key : ∀ (f : PFile), pwRun [] f ops = .ok (f.run ops) := by
      clear h
      induction ops with
      | nil => intro f; rfl
      | cons o os ih =>
        intro f
        unfold pwRun PFile.run
        have : pwStep [] f o = .ok (f.step o) := by cases o <;> rfl
        rw [this]
        simp only [Res.bind_ok]
        rw [ih]
        rfl
    exact ⟨_, key _⟩
  · exact ⟨_, pwRun_sim _ hp ops ⟨[], 0⟩ (by simp) h⟩

/-- C39, the plain reading: write pieces `ws`, go back to the start, read in any pieces `rs` that cover the data: the
    data comes back. -/
theorem C39_roundtrip_partial (pw : Str) (ws : List (List UInt8)) (n : Nat) (h : ws.flatten.length ≤ 2147483647)
    (hn : ws.flatten.length ≤ n) :
    ∃ outs f', pwRun (setPassWord pw) ⟨[], 0⟩ (ws.map .write ++ [.seek 0, .read n]) = .ok (outs, f') ∧
      outs.getLast? = some (.data ws.flatten) := by
  have key : ∀ (ws : List (List UInt8)) (g : PFile), g.pos = g.bytes.length →
      g.bytes.length + ws.flatten.length ≤ 2147483647 → g.bytes.length + ws.flatten.length ≤ n →
      SmallNoGap g (ws.map .write ++ [.seek 0, .read n]) ∧
      (g.run (ws.map .write ++ [.seek 0, .read n])).1.getLast? = some (.data (g.bytes ++ ws.flatten)) := by
    intro ws
    induction ws with
    | nil =>
      intro g hg h1 h2
      simp only [List.flatten_nil, List.length_nil, Nat.add_zero] at h1 h2
      constructor
      · refine ⟨?_, h1, trivial, ?_, ?_⟩
        · simp
        · simpa [PFile.step, PFile.seek] using h1
        · simpa [PFile.step, PFile.seek, PFile.read, SmallNoGap] using h1
      · simp only [List.map_nil, List.nil_append, PFile.run, PFile.step, PFile.seek, PFile.read, List.drop_zero,
          List.flatten_nil, List.append_nil]
        rw [List.take_of_length_le h2]
        rfl
    | cons w ws ih =>
      intro g hg h1 h2
      simp only [List.flatten_cons, List.length_append] at h1 h2
      have hb : (g.write w).bytes = g.bytes ++ w := by
        simp only [PFile.write]
        rw [splice_of_le (by omega), hg]
        simp
      have hp : (g.write w).pos = (g.write w).bytes.length := by
        rw [hb]; simp [PFile.write, hg]
      have := ih (g.write w) hp (by rw [hb, List.length_append]; omega) (by rw [hb, List.length_append]; omega)
      constructor
      · exact ⟨trivial, by omega, this.1⟩
      · have e := this.2
        rw [hb, List.append_assoc] at e
        simp only [List.map_cons, List.cons_append, List.flatten_cons]
        rw [← e]
        simp only [PFile.run, PFile.step]
        rw [List.getLast?_cons]
        cases hl : (PFile.run (g.write w) (ws.map .write ++ [.seek 0, .read n])).1.getLast? with
        | none =>
          rw [hl] at e
          cases e
        | some x => rfl
  have k := key ws ⟨[], 0⟩ rfl (by simpa using h) (by simpa using hn)
  obtain ⟨f', hf⟩ := C39_transparent_partial pw _ k.1
  exact ⟨_, f', hf, by simpa using k.2⟩

/-- C39 fails from 2 GiB on: the offset is cut to 32 bits, becomes negative, and the password is indexed with a negative
    number. -/
theorem C39_large_offset : applyPassWord [1, 2, 3] [65] 2147483648 = .ub := by decide

/-- A password of one byte does not protect anything: the bytes are stored as they are. -/
theorem C39_one_byte_password (c : UInt8) (bs : List UInt8) (k : Nat) (hk : k ≤ 2147483647) :
    applyPassWord [c] bs k = .ok bs := by
  rw [applyPassWord_eq _ (by simp) _ _ hk]
  congr 1
  apply List.ext_getElem?
  intro i
  rw [scram_getElem?]
  have : pwKey [c] (k + i) = 0 := by simp [pwKey, Nat.mod_one]
  rw [this]
  cases bs[i]? <;> simp

example : SmallNoGap ⟨[], 0⟩ [.write [1, 2, 3], .seek 1, .read 5, .write [9], .seek 0, .read 2] := by
  simp [SmallNoGap, PFile.step, PFile.write, PFile.read, PFile.seek, splice]
example : applyPassWord (setPassWord [97, 98, 99]) [1, 2, 3, 4] 5 = .ok [1, 51, 178, 4] := by decide

#print axioms C39_transparent_partial
#print axioms C39_roundtrip_partial
#print axioms C39_large_offset
#print axioms C39_one_byte_password

end Gdx.Props
