import Verif.Proofs.Arrive
import Verif.Props.Domains

/-! C07, C08: what can be opened when the process that writes a file dies. -/

namespace Gdx.Props
open Gdx Gdx.Spec

/-! ### a file that is being created -/

theorem emptyIndex_eq : emptyIndex = [0, 0, 0, 0] ++ List.replicate 76 0 := by decide

theorem created {e : Env} {g g1 : Gx} {n : Bool} {i : Int} {p : Str} {c m : Int} (h : openWriteEx e g n i p c = .ok (g1, (true, m))) :
    ∃ b, fileHeader e (c % 2) p = .ok b ∧ Behind [(0, b ++ emptyIndex)] [] (b.length + 80) b.length g1 := by
  unfold openWriteEx at h
  split at h
  · cases h
  split at h
  · cases h
  split at h
  · cases h
  obtain ⟨b, hb, h⟩ := Res.bind_eq_ok.mp h
  cases h
  refine ⟨b, hb, ⟨[], rfl, fun _ h => nomatch h⟩, ?_, rfl, ?_⟩
  · show ((b.length + 80 : Nat) : Int) ≤ (b.length : Int) + 80
    omega
  · exact arrive_put [] _ rfl _ _

/-- the header and the empty index come first -/
theorem first_bytes (b : List UInt8) {ws : List (Nat × UInt8)} (hw : ∀ w ∈ ws, b.length + 80 ≤ w.1) (k : Nat) :
    (∃ r t, arrive [] ((stretch 0 (b ++ emptyIndex) ++ ws).take k) ++ r = b ++ ([0, 0, 0, 0] ++ t)) ∧
      (b.length + 4 ≤ k → ∃ t, arrive [] ((stretch 0 (b ++ emptyIndex) ++ ws).take k) = b ++ ([0, 0, 0, 0] ++ t)) ∧
      (b.length + 80 ≤ k → ∃ t, arrive [] ((stretch 0 (b ++ emptyIndex) ++ ws).take k) = (b ++ emptyIndex) ++ t) := by
  have hl : (b ++ emptyIndex).length = b.length + 80 := by rw [List.length_append]; rfl
  have h0 : ∀ a, arrive [] (stretch 0 a) = a := fun a => arrive_end [] a
  rw [List.take_append, arrive_append, stretch_take, h0, stretch_length, hl]
  have hb : ∃ t, arrive (b ++ emptyIndex) (ws.take (k - (b.length + 80))) = (b ++ emptyIndex) ++ t := by
    have := arrive_behind (b ++ emptyIndex) (ws.take (k - (b.length + 80))) [] (fun w h => by
      rw [hl]; exact hw w (List.mem_of_mem_take h))
    rwa [List.append_nil] at this
  by_cases hk : b.length + 80 ≤ k
  · rw [List.take_of_length_le (by omega)]
    obtain ⟨t, ht⟩ := hb
    rw [ht, emptyIndex_eq]
    exact ⟨⟨[], List.replicate 76 0 ++ t, by simp⟩, fun _ => ⟨List.replicate 76 0 ++ t, by simp⟩, fun _ => ⟨t, rfl⟩⟩
  · rw [show k - (b.length + 80) = 0 by omega]
    simp only [List.take_zero]
    show (∃ r t, (b ++ emptyIndex).take k ++ r = _) ∧ (_ → ∃ t, (b ++ emptyIndex).take k = _) ∧ _
    refine ⟨⟨(b ++ emptyIndex).drop k, List.replicate 76 0, by rw [List.take_append_drop, emptyIndex_eq]⟩, fun h4 => ?_, fun h => absurd h hk⟩
    refine ⟨(List.replicate 76 0).take (k - b.length - 4), ?_⟩
    rw [List.take_append, List.take_of_length_le (by omega), emptyIndex_eq, List.take_append, List.take_of_length_le (l := [0, 0, 0, 0]) (by simp; omega)]
    rfl

/-- C07, before gdxClose. An object with any past creates a file and makes any calls but closing and opening; then it dies: of its byte writes
    only the first `k` have arrived. `extra` are the bytes of a symbol that is not finished yet (they go behind what is in the file).
    No object, with no decompressor, opens what is left; as soon as header and the first four bytes of the index are there, the
    answer is the error for the missing index. -/
theorem C07_before_close {e : Env} {z : Cz} {cs ds : List Call} (hc : ∀ c ∈ cs, c.WF) (hd : ∀ c ∈ ds, c.WF) (hi : ∀ c ∈ ds, c.inFile = true)
    {g0 g1 g : Gx} (h0 : run e z Gx.new cs = .ok g0) {n : Bool} {i : Int} {p : Str} {c m : Int}
    (h1 : openWriteEx e g0 n i p c = .ok (g1, (true, m))) (hg : run e z g1 ds = .ok g)
    {extra : List (Nat × UInt8)} (hx : ∀ w ∈ extra, g.nextWrite ≤ w.1) (k : Nat) (z' : Cz) (g' : Gx) (rm : Int) :
    ((openReadXX z' g' (.content (arrive [] ((bytesOf g.log ++ extra).take k))) rm).All fun a => a.2.1 = false) ∧
    (g'.mode = .notOpen → g.majorPos + 4 ≤ k →
      ∃ g2, openReadXX z' g' (.content (arrive [] ((bytesOf g.log ++ extra).take k))) rm = .ok (g2, (false, -100031))) := by
  have ha0 : Aft g0 := by
    have := run_all (P := fun _ => True) (Q := fun _ _ _ => True) e z (fun _ _ _ _ _ _ _ _ => trivial) cs Gx.new hc aft_new trivial
      (along_of e z cs Gx.new fun _ _ _ _ => trivial)
    rw [h0] at this
    exact this.1
  have ha1 : Aft g1 := by
    have := openWriteEx_aft e g0 n i p c
    rw [h1] at this
    unfold Aft
    rw [show g1.modeAft = g0.modeAft from this]
    exact ha0
  obtain ⟨b, hb, hbe⟩ := created h1
  have hr := run_behind e z ds g1 hd hi ha1 hbe
  rw [hg] at hr
  obtain ⟨_, ⟨rest, hl, hrest⟩, hn, hmj, _⟩ := hr
  have hcl : c % 2 = 0 ∨ c % 2 = 1 := by omega
  rw [hl, bytesOf_append, bytesOf_one, List.append_assoc, hmj]
  have hw : ∀ w ∈ bytesOf rest ++ extra, b.length + 80 ≤ w.1 := by
    intro w hw
    rcases List.mem_append.mp hw with hw | hw
    · exact bytesOf_ge hrest w hw
    · have := hx w hw
      omega
  obtain ⟨⟨r, t, e1⟩, e2, _⟩ := first_bytes b hw k
  refine ⟨no_open hb e1 z' g' rm, fun hm hk => ?_⟩
  obtain ⟨t, e2⟩ := e2 hk
  rw [e2]
  exact open_noIndex hb hcl z' g' hm rm

/-- at most three bytes of the index: its mark still ends with 0 -/
theorem arrive_mark (b : List UInt8) (x y w : UInt8) (t ys : List UInt8) (hy : ys.length ≤ 3) :
    ∃ x' y' w', arrive (b ++ ([x, y, w, 0] ++ t)) (stretch b.length ys) = b ++ ([x', y', w', 0] ++ t) := by
  have key : ∀ i v, i ≤ 3 → setByte (b ++ ([x, y, w, 0] ++ t)) (b.length + i) v = b ++ (setByte ([x, y, w, 0] ++ t) i v) := fun i v _ => by
    rw [setByte_behind _ _ _ _ (by omega), show b.length + i - b.length = i by omega]
  have step0 : ∀ (x y w : UInt8) v, setByte (b ++ ([x, y, w, 0] ++ t)) b.length v = b ++ ([v, y, w, 0] ++ t) := fun x y w v => by
    rw [setByte_behind _ _ _ _ (Nat.le_refl _), Nat.sub_self]
    simp [setByte]
  have step1 : ∀ (x y w : UInt8) v, setByte (b ++ ([x, y, w, 0] ++ t)) (b.length + 1) v = b ++ ([x, v, w, 0] ++ t) := fun x y w v => by
    rw [setByte_behind _ _ _ _ (by omega), show b.length + 1 - b.length = 1 by omega]
    simp [setByte]
  have step2 : ∀ (x y w : UInt8) v, setByte (b ++ ([x, y, w, 0] ++ t)) (b.length + 1 + 1) v = b ++ ([x, y, v, 0] ++ t) := fun x y w v => by
    rw [setByte_behind _ _ _ _ (by omega), show b.length + 1 + 1 - b.length = 2 by omega]
    simp [setByte]
  match ys, hy with
  | [], _ => exact ⟨x, y, w, rfl⟩
  | [a], _ => exact ⟨a, y, w, step0 x y w a⟩
  | [a, c], _ =>
    refine ⟨a, c, w, ?_⟩
    show setByte (setByte _ b.length a) (b.length + 1) c = _
    rw [step0, step1]
  | [a, c, d], _ =>
    refine ⟨a, c, d, ?_⟩
    show setByte (setByte (setByte _ b.length a) (b.length + 1) c) (b.length + 1 + 1) d = _
    rw [step0, step1, step2]
  | _ :: _ :: _ :: _ :: _, h => exact absurd h (by simp)

theorem indexBytes_length (p : Int) (t : Tables) : (indexBytes p t).length = 52 := by simp [indexBytes]

/-- C07, while gdxClose is running: as long as not all four bytes of the index mark have arrived (52 bytes of the index come last), no object opens
    what is left. When all bytes have arrived it is the file that gdxClose leaves (C06, C47 say what is in there).
    Missing: when only a part of the six positions that follow the mark has arrived, the file may open (`C07_window`, `C07_next`). -/
theorem C07_closing_partial {e : Env} {z : Cz} {cs ds : List Call} (hc : ∀ c ∈ cs, c.WF) (hd : ∀ c ∈ ds, c.WF) (hi : ∀ c ∈ ds, c.inFile = true)
    {g0 g1 g gc : Gx} (h0 : run e z Gx.new cs = .ok g0) {n : Bool} {i : Int} {p : Str} {c m r : Int}
    (h1 : openWriteEx e g0 n i p c = .ok (g1, (true, m))) (hg : run e z g1 ds = .ok g) (hcl : gdxClose z g = .ok (gc, r)) :
    (∀ k, k + 48 < (bytesOf gc.log).length → ∀ (z' : Cz) (g' : Gx) (rm : Int),
      ((openReadXX z' g' (.content (arrive [] ((bytesOf gc.log).take k))) rm).All fun a => a.2.1 = false) ∧
      (g'.mode = .notOpen → g.majorPos + 4 ≤ k →
        ∃ g2, openReadXX z' g' (.content (arrive [] ((bytesOf gc.log).take k))) rm = .ok (g2, (false, -100031)))) ∧
    ∀ k, (bytesOf gc.log).length ≤ k → arrive [] ((bytesOf gc.log).take k) = gc.file := by
  have ha0 : Aft g0 := by
    have := run_all (P := fun _ => True) (Q := fun _ _ _ => True) e z (fun _ _ _ _ _ _ _ _ => trivial) cs Gx.new hc aft_new trivial
      (along_of e z cs Gx.new fun _ _ _ _ => trivial)
    rw [h0] at this
    exact this.1
  have ha1 : Aft g1 := by
    have := openWriteEx_aft e g0 n i p c
    rw [h1] at this
    unfold Aft
    rw [show g1.modeAft = g0.modeAft from this]
    exact ha0
  obtain ⟨b, hb, hbe⟩ := created h1
  have hr := run_behind e z ds g1 hd hi ha1 hbe
  rw [hg] at hr
  have hmj := hr.2.major
  obtain ⟨hfile, rest, hrest, hlog⟩ := wrTables_fin hr.2 hcl
  have hc2 : c % 2 = 0 ∨ c % 2 = 1 := by omega
  have hw := bytesOf_ge hrest
  refine ⟨fun k hk z' g' rm => ?_, fun k hk => by rw [List.take_of_length_le hk]; exact hfile.symm⟩
  have hA : ∀ j, ((openReadXX z' g' (.content (arrive [] ((stretch 0 (b ++ emptyIndex) ++ bytesOf rest).take j))) rm).All fun a => a.2.1 = false) ∧
      (g'.mode = .notOpen → b.length + 4 ≤ j →
        ∃ g2, openReadXX z' g' (.content (arrive [] ((stretch 0 (b ++ emptyIndex) ++ bytesOf rest).take j))) rm = .ok (g2, (false, -100031))) := by
    intro j
    obtain ⟨⟨r, t, e1⟩, e2, _⟩ := first_bytes b hw j
    refine ⟨no_open hb e1 z' g' rm, fun hm hj => ?_⟩
    obtain ⟨t, e2⟩ := e2 hj
    rw [e2]
    exact open_noIndex hb hc2 z' g' hm rm
  rw [hmj]
  rcases hlog with hl | ⟨q, t, hl⟩
  · rw [hl, bytesOf_append, bytesOf_one]
    exact hA k
  · have hbl : (bytesOf gc.log) = (stretch 0 (b ++ emptyIndex) ++ bytesOf rest) ++ stretch b.length (indexBytes q t) := by
      rw [hl, bytesOf_append, bytesOf_append, bytesOf_one, bytesOf_one]
    have hlen : (bytesOf gc.log).length = (stretch 0 (b ++ emptyIndex) ++ bytesOf rest).length + 52 := by
      rw [hbl, List.length_append, stretch_length b.length, indexBytes_length]
    rw [hbl, List.take_append]
    by_cases hk2 : k ≤ (stretch 0 (b ++ emptyIndex) ++ bytesOf rest).length
    · rw [Nat.sub_eq_zero_of_le hk2, List.take_zero, List.append_nil]
      exact hA k
    · rw [List.take_of_length_le (by omega), arrive_append, stretch_take]
      have h80 : (stretch 0 (b ++ emptyIndex)).length = b.length + 80 := by
        rw [stretch_length, List.length_append]; rfl
      obtain ⟨_, e2, _⟩ := first_bytes b hw (stretch 0 (b ++ emptyIndex) ++ bytesOf rest).length
      obtain ⟨u, e2⟩ := e2 (by rw [List.length_append, h80]; omega)
      rw [List.take_of_length_le (Nat.le_refl _)] at e2
      rw [e2]
      obtain ⟨x', y', w', e3⟩ := arrive_mark b 0 0 0 u ((indexBytes q t).take (k - (stretch 0 (b ++ emptyIndex) ++ bytesOf rest).length)) (by
        rw [List.length_take]; omega)
      rw [e3]
      exact ⟨no_open hb (r := []) (by rw [List.append_nil]) z' g' rm, fun hm _ => open_noIndex hb hc2 z' g' hm rm⟩

/-! ### examples and counterexamples for C07 -/

/-- the first `k` bytes of the writes -/
def takeLog : List (Nat × List UInt8) → Nat → List (Nat × List UInt8)
  | [], _ => []
  | w :: log, k => (w.1, w.2.take k) :: takeLog log (k - w.2.length)

theorem bytesOf_take : ∀ (log : List (Nat × List UInt8)) (k : Nat), (bytesOf log).take k = bytesOf (takeLog log k)
  | [], k => by simp [bytesOf, takeLog]
  | w :: log, k => by
    show (stretch w.1 w.2 ++ bytesOf log).take k = stretch w.1 (w.2.take k) ++ bytesOf (takeLog log (k - w.2.length))
    rw [List.take_append, stretch_take, stretch_length, bytesOf_take]

/-- write by write instead of byte by byte (so that the examples below are evaluated faster) -/
theorem arrive_take (f : List UInt8) (log : List (Nat × List UInt8)) (k : Nat) :
    arrive f ((bytesOf log).take k) = (takeLog log k).foldl (fun f w => splice f w.1 w.2) f := by rw [bytesOf_take, arrive_log]

/-- what is left when the last `k` bytes written by gdxClose are missing -/
def diedClosing (cs : List Call) (k : Nat) : Res (List UInt8) :=
  after cs fun g => do
    let (g1, _) ← gdxClose Cz.id g
    pure (arrive [] ((bytesOf g1.log).take ((bytesOf g1.log).length - k)))

def opens (f : List UInt8) : Res (Bool × Int) := do
  let (_, r) ← openRead Cz.id Gx.new (.content f)
  pure r

/-- all bytes arrived: the file opens; the last three bytes of the mark are missing: it does not -/
example : (do opens (← diedClosing exDom26 0)) = .ok (true, 0) := by
  simp only [diedClosing, arrive_take]
  decide +kernel
example : (do opens (← diedClosing exDom26 49)) = .ok (false, -100031) := by
  simp only [diedClosing, arrive_take]
  decide +kernel
example : (do opens (← diedClosing exDom26 300)) = .ok (false, -100031) := by
  simp only [diedClosing, arrive_take]
  decide +kernel
/-- after 200 bytes, and after so few that not even the header is there (with 28 the missing bytes are used as they happen to be) -/
example : after exDom26 (fun g => do opens (arrive [] ((bytesOf g.log ++ [(g.nextWrite.toNat, 5)]).take 200))) = .ok (false, -100031) := by
  decide +kernel
example : after exDom26 (fun g => opens (arrive [] ((bytesOf g.log).take 20))) = .ok (false, -100034) := by decide +kernel
example : after exDom26 (fun g => opens (arrive [] ((bytesOf g.log).take 28))) = .ub := by decide +kernel

/-- C07 is violated when the process dies while the index is being written. The last eight bytes (DomStrPosition) are missing: the file
    opens, but the relaxed domains of symbol 4 are gone. -/
theorem C07_window : (do
      let f ← diedClosing exDom26 8
      let (g, r) ← openRead Cz.id Gx.new (.content f)
      let a ← domAnswer 4 g
      pure (r, a)) = .ok ((true, 0), (some [0, 0], 1, [star, star])) ∧
    (do
      let f ← diedClosing exDom26 0
      let (g, r) ← openRead Cz.id Gx.new (.content f)
      let a ← domAnswer 4 g
      pure (r, a)) = .ok ((true, 0), (some [0, 0], 2, [[107], star])) := by
  simp only [diedClosing, arrive_take]
  constructor <;> decide +kernel

/-- NextWritePosition is missing as well: the file opens, and appending to it starts at position 0, over the header; then it does not
    open any more. -/
theorem C07_next : (do
      let f ← diedClosing exDom26 16
      let (g, r) ← openAppend Cz.id Gx.new (.content f) [66]
      let g' ← run ⟨[]⟩ Cz.id g [.rawStart [120] [] 1 1 0, .writeRaw [1] [0], .writeDone]
      let (g2, _) ← gdxClose Cz.id g'
      let r2 ← opens g2.file
      pure (r, g.nextWrite, r2)) = .ok ((true, 0), 0, (false, -100041)) := by
  simp only [diedClosing, arrive_take]
  decide +kernel

/-! ### C08 -/

theorem stretch_lt (p : Nat) (a : List UInt8) : ∀ w ∈ stretch p a, w.1 < p + a.length := by
  induction a generalizing p with
  | nil => exact fun _ h => nomatch h
  | cons x a ih =>
    intro w hw
    rcases List.mem_cons.mp hw with rfl | hw
    · simp
    · have := ih (p + 1) w hw
      rw [List.length_cons]
      omega

theorem setByte_other (f : List UInt8) (p i : Nat) (b : UInt8) (h : p ≠ i) (hi : i < f.length) : (setByte f p b)[i]? = f[i]? ∧ i < (setByte f p b).length := by
  unfold setByte
  constructor
  · rw [List.getElem?_set_ne h, List.getElem?_append_left hi]
  · rw [List.length_set, List.length_append]
    omega

/-- bytes that are not written stay -/
theorem arrive_other (i : Nat) : ∀ (ws : List (Nat × UInt8)) (f : List UInt8), (∀ w ∈ ws, w.1 ≠ i) → i < f.length → (arrive f ws)[i]? = f[i]?
  | [], f, _, _ => rfl
  | w :: ws, f, h, hi => by
    obtain ⟨h1, h2⟩ := setByte_other f w.1 i w.2 (h w List.mem_cons_self) hi
    show (arrive (setByte f w.1 w.2) ws)[i]? = _
    rw [arrive_other i ws _ (fun v hv => h v (List.mem_cons_of_mem _ hv)) h2, h1]

/-- the data of a symbol depend only on the bytes of their stretch -/
theorem _root_.Gdx.StoredAs.agree {z : Cz} {f f' : List UInt8} {lo hi : Int} {s : Sym} {rs : List Rec} (h : StoredAs z f lo hi s rs)
    (hf : ∀ i : Nat, lo ≤ i → (i : Int) < hi → i < f.length → f'[i]? = f[i]?) : StoredAs z f' lo hi s rs := by
  obtain ⟨h1, h2, h3, h4, bytes, t, h5, h6, h7⟩ := h
  refine ⟨h1, h2, h3, h4, bytes, f'.drop (s.pos.toNat + (z.wr s.compr bytes).length), ?_, h6, h7⟩
  suffices hx : (f'.drop s.pos.toNat).take (z.wr s.compr bytes).length = z.wr s.compr bytes by
    rw [← List.drop_drop]
    conv_lhs => rw [← List.take_append_drop (z.wr s.compr bytes).length (f'.drop s.pos.toNat)]
    rw [hx]
  apply List.ext_getElem?
  intro j
  rw [List.getElem?_take]
  by_cases hj : j < (z.wr s.compr bytes).length
  · rw [if_pos hj, List.getElem?_drop]
    have hfj : f[s.pos.toNat + j]? = (z.wr s.compr bytes)[j]? := by
      rw [← List.getElem?_drop, h5, List.getElem?_append_left hj]
    have hl : s.pos.toNat + j < f.length := by
      have : f[s.pos.toNat + j]? ≠ none := by rw [hfj, List.getElem?_eq_getElem hj]; simp
      by_contra hc
      exact this (List.getElem?_eq_none (by omega))
    rw [hf _ (by omega) (by omega) hl, hfj]
  · rw [if_neg hj, List.getElem?_eq_none (by omega)]

/-- the appended file as it is: nothing is written in front of NextWritePosition until gdxClose writes the index -/
theorem appended {e : Env} {z : Cz} {cs ds : List Call} (hc : ∀ c ∈ cs, c.WF) (hd : ∀ c ∈ ds, c.WF) (hi : ∀ c ∈ ds, c.inFile = true)
    {g0 g1 g : Gx} (h0 : run e z Gx.new cs = .ok g0) {f : List UInt8} {p : Str} {m : Int}
    (h1 : openAppend z g0 (.content f) p = .ok (g1, (true, m))) (hn : 0 ≤ g1.nextWrite) (hg : run e z g1 ds = .ok g) :
    Behind [] f g1.nextWrite.toNat g1.majorPos g := by
  have ha0 : Aft g0 := by
    have := run_all (P := fun _ => True) (Q := fun _ _ _ => True) e z (fun _ _ _ _ _ _ _ _ => trivial) cs Gx.new hc aft_new trivial
      (along_of e z cs Gx.new fun _ _ _ _ => trivial)
    rw [h0] at this
    exact this.1
  have ha1 : Aft g1 := by
    have := openAppend_aft z g0 (.content f) p ha0
    rw [h1] at this
    exact this
  have hdk := openAppend_disk h1
  have hf1 : g1.file = f := congrArg Prod.fst hdk
  have hl1 : g1.log = [] := congrArg Prod.snd hdk
  have hr := run_behind e z ds g1 hd hi ha1 (l0 := []) (f0 := f) (n := g1.nextWrite.toNat) (m := g1.majorPos)
    ⟨⟨[], by rw [hl1]; rfl, fun _ h => nomatch h⟩, by omega, rfl, by rw [hf1, hl1]; rfl⟩
  rw [hg] at hr
  exact hr.2

/-- C08: what stays of the file to which symbols are appended, whenever the process dies: all bytes in front of NextWritePosition, except
    that gdxClose may have rewritten some of the 52 bytes of the index. (The tables are behind NextWritePosition.)
    Missing: that the file still opens. It does not (`C08_tables`). -/
theorem C08_bytes_partial {e : Env} {z : Cz} {cs ds : List Call} (hc : ∀ c ∈ cs, c.WF) (hd : ∀ c ∈ ds, c.WF) (hi : ∀ c ∈ ds, c.inFile = true)
    {g0 g1 g : Gx} (h0 : run e z Gx.new cs = .ok g0) {f : List UInt8} {p : Str} {m : Int}
    (h1 : openAppend z g0 (.content f) p = .ok (g1, (true, m))) (hn : 0 ≤ g1.nextWrite) (hg : run e z g1 ds = .ok g) (k : Nat) :
    (∀ extra : List (Nat × UInt8), (∀ w ∈ extra, g.nextWrite ≤ w.1) → ∀ i : Nat, (i : Int) < g1.nextWrite → i < f.length →
      (arrive f ((bytesOf g.log ++ extra).take k))[i]? = f[i]?) ∧
    ∀ (gc : Gx) (r : Int), gdxClose z g = .ok (gc, r) → ∀ i : Nat, (i : Int) < g1.nextWrite → i < f.length →
      ¬ (g1.majorPos ≤ i ∧ i < g1.majorPos + 52) → (arrive f ((bytesOf gc.log).take k))[i]? = f[i]? := by
  have hb := appended hc hd hi h0 h1 hn hg
  constructor
  · intro extra hx i hi hl
    obtain ⟨⟨rest, hlog, hrest⟩, hnx, _, _⟩ := hb
    refine arrive_other i _ _ (fun w hw => ?_) hl
    rw [hlog] at hw
    rcases List.mem_append.mp (List.mem_of_mem_take hw) with hw | hw
    · have := bytesOf_ge hrest w hw
      omega
    · have := hx w hw
      omega
  · intro gc r hcl i hi hl hne
    obtain ⟨_, rest, hrest, hlog⟩ := wrTables_fin hb hcl
    refine arrive_other i _ _ (fun w hw => ?_) hl
    have hw := List.mem_of_mem_take hw
    rcases hlog with hlog | ⟨q, t, hlog⟩
    · rw [hlog] at hw
      have := bytesOf_ge hrest w hw
      omega
    · rw [hlog, bytesOf_append, bytesOf_one] at hw
      rcases List.mem_append.mp hw with hw | hw
      · have := bytesOf_ge hrest w hw
        omega
      · have a := stretch_ge _ _ w hw
        have b := stretch_lt _ _ w hw
        rw [indexBytes_length] at b
        omega

/-- C08: the records of every symbol that was in the file are still where they were, whenever the process dies. (`StoredAs`: the records
    `rs` of symbol `s` are between two positions of the file, here behind the index and in front of NextWritePosition, as in
    every file of the library.) Missing: the tables that say where. -/
theorem C08_data_partial {e : Env} {z : Cz} {cs ds : List Call} (hc : ∀ c ∈ cs, c.WF) (hd : ∀ c ∈ ds, c.WF) (hi : ∀ c ∈ ds, c.inFile = true)
    {g0 g1 g : Gx} (h0 : run e z Gx.new cs = .ok g0) {f : List UInt8} {p : Str} {m : Int}
    (h1 : openAppend z g0 (.content f) p = .ok (g1, (true, m))) (hn : 0 ≤ g1.nextWrite) (hg : run e z g1 ds = .ok g) (k : Nat)
    {s : Sym} {rs : List Rec} (hs : StoredAs z f (g1.majorPos + 80) g1.nextWrite s rs) :
    (∀ extra : List (Nat × UInt8), (∀ w ∈ extra, g.nextWrite ≤ w.1) →
      StoredAs z (arrive f ((bytesOf g.log ++ extra).take k)) (g1.majorPos + 80) g1.nextWrite s rs) ∧
    ∀ (gc : Gx) (r : Int), gdxClose z g = .ok (gc, r) →
      StoredAs z (arrive f ((bytesOf gc.log).take k)) (g1.majorPos + 80) g1.nextWrite s rs := by
  obtain ⟨a, b⟩ := C08_bytes_partial hc hd hi h0 h1 hn hg k
  exact ⟨fun extra hx => hs.agree fun i _ h hl => a extra hx i h hl,
    fun gc r hcl => hs.agree fun i h h' hl => b gc r hcl i h' hl (by omega)⟩

/-- a file with the set `i` -/
def exOld08 : List Call :=
  [.openWrite false 0 [65] 0, .uelRawStart, .uelRaw [97], .uelRaw [98], .uelDone,
   .rawStart [105] [] 1 0 0, .writeRaw [1] [0], .writeRaw [2] [0], .writeDone]

/-- appends a symbol to it and dies after `k` bytes, before gdxClose -/
def diedAppending (k : Nat) : Res (Bool × Int) :=
  after exOld08 fun g => do
    let (g1, _) ← gdxClose Cz.id g
    let (g2, _) ← openAppend Cz.id Gx.new (.content g1.file) [66]
    let g3 ← run ⟨[]⟩ Cz.id g2 [.rawStart [112] [] 1 1 0, .writeRaw [1] [7], .writeDone]
    opens (arrive g1.file ((bytesOf g3.log).take k))

example : diedAppending 0 = .ok (true, 0) := by decide +kernel

/-- C08 is violated: after three bytes of appended data the file does not open any more, because the data are written over the
    symbol table. -/
theorem C08_tables : diedAppending 3 = .ok (false, -100035) ∧ diedAppending 10 = .ok (false, -100035) := by
  constructor <;> decide +kernel

/-- the records of `i` are still there -/
example : after exOld08 (fun g => do
    let (g1, _) ← gdxClose Cz.id g
    let (g2, _) ← openAppend Cz.id Gx.new (.content g1.file) [66]
    let g3 ← run ⟨[]⟩ Cz.id g2 [.rawStart [112] [] 1 1 0, .writeRaw [1] [7], .writeDone]
    let f := arrive g1.file ((bytesOf g3.log).take 10)
    pure (decide (f.take g2.nextWrite.toNat = g1.file.take g2.nextWrite.toNat ∧ f ≠ g1.file ∧ g2.majorPos + 80 < g2.nextWrite))) = .ok true := by
  decide +kernel

#print axioms C07_before_close
#print axioms C07_closing_partial
#print axioms C07_window
#print axioms C07_next
#print axioms C08_bytes_partial
#print axioms C08_data_partial
#print axioms C08_tables

end Gdx.Props
