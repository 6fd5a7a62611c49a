import Verif.Model.BufStream
import Verif.Proofs.PFile

/-! The buffered stream refines the plain file. -/

namespace Gdx
open BufS

theorem putAt_ok {buf : List UInt8} {i : Nat} {bs : List UInt8} (h : i + bs.length ≤ buf.length) :
    putAt buf i bs = .ok (buf.take i ++ bs ++ buf.drop (i + bs.length)) := by
  unfold putAt; rw [if_pos h]

theorem put_length {buf : List UInt8} {i : Nat} {bs : List UInt8} (h : i + bs.length ≤ buf.length) :
    (buf.take i ++ bs ++ buf.drop (i + bs.length)).length = buf.length := by
  simp; omega

theorem put_take {buf : List UInt8} {i : Nat} {bs : List UInt8} (h : i + bs.length ≤ buf.length) :
    (buf.take i ++ bs ++ buf.drop (i + bs.length)).take (i + bs.length) = buf.take i ++ bs := by
  have hl : (buf.take i ++ bs).length = i + bs.length := by simp; omega
  rw [← hl, List.take_left']
  rfl

/-- simulation relation between the buffered stream (uncompressed) and the plain file -/
structure BInv (B : Nat) (s : BufS) (g : PFile) : Prop where
  hB : 0 < B
  hbuf : s.buf.length = B
  hnr : s.nr ≤ s.nl
  hnl : s.nl ≤ B
  hnw : s.nw ≤ B
  hex : s.nl = 0 ∨ s.nw = 0
  hph : s.nl ≤ s.f.pos
  hload : (s.f.bytes.drop (s.f.pos - s.nl)).take s.nl = s.buf.take s.nl
  hcomp : s.comp = false
  hbytes : g.bytes = splice s.f.bytes s.f.pos (s.buf.take s.nw)
  hpos : g.pos = s.f.pos - s.nl + s.nr + s.nw

theorem BInv.init {B : Nat} (hB : 0 < B) (f : PFile) : BInv B (BufS.init B f) f where
  hB := hB
  hbuf := by simp [BufS.init]
  hnr := le_refl _
  hnl := by simp [BufS.init]
  hnw := by simp [BufS.init]
  hex := Or.inl rfl
  hph := by simp [BufS.init]
  hload := by simp [BufS.init]
  hcomp := rfl
  hbytes := by simp [BufS.init, splice_nil]
  hpos := by simp [BufS.init]

theorem BInv.flush {B : Nat} {s : BufS} {g : PFile} (Z : Zlib) (h : BInv B s g) :
    BInv B (s.flush Z) g ∧ (s.flush Z).nw = 0 := by
  unfold BufS.flush
  split
  · exact ⟨h, by assumption⟩
  · rename_i hn
    rw [if_pos h.hcomp]
    have hlen : (s.buf.take s.nw).length = s.nw := by rw [List.length_take, h.hbuf]; have := h.hnw; omega
    have hl0 : s.nl = 0 := h.hex.resolve_right hn
    refine ⟨⟨h.hB, h.hbuf, le_refl _, Nat.zero_le _, Nat.zero_le _, Or.inl rfl, Nat.zero_le _, by simp, h.hcomp, ?_, ?_⟩, rfl⟩
    · simp only [List.take_zero, splice_nil, PFile.write]
      exact h.hbytes
    · have := h.hpos
      have hr0 : s.nr = 0 := by have := h.hnr; omega
      simp only [PFile.write, hlen]
      omega

theorem BInv.avail {B : Nat} {s : BufS} {g : PFile} (h : BInv B s g) (hw : s.nw = 0) (n : Nat) (hn : n ≤ s.nl - s.nr) :
    s.avail.take n = (g.bytes.drop g.pos).take n ∧ (s.avail.take n).length = n := by
  have hb : g.bytes = s.f.bytes := by rw [h.hbytes, hw]; simp [splice_nil]
  have hp := h.hpos
  have hnr := h.hnr
  have hph := h.hph
  have hlen : (s.buf.take s.nl).length = s.nl := by rw [List.length_take, h.hbuf]; have := h.hnl; omega
  constructor
  · unfold BufS.avail
    rw [← h.hload, List.drop_take, List.take_take, List.drop_drop, hb, Nat.min_eq_left hn]
    congr 2
    omega
  · unfold BufS.avail
    rw [List.length_take, List.length_drop, hlen]
    omega

theorem BInv.advance {B : Nat} {s : BufS} {g : PFile} (h : BInv B s g) (hw : s.nw = 0) (n : Nat) (hn : n ≤ s.nl - s.nr) :
    BInv B { s with nr := s.nr + n } { g with pos := g.pos + n } := by
  have hp := h.hpos
  have := h.hnr
  refine ⟨h.hB, h.hbuf, ?_, h.hnl, h.hnw, h.hex, h.hph, h.hload, h.hcomp, h.hbytes, ?_⟩
  · simp only; omega
  · simp only; omega

/-- FillBuffer when the buffer is used up -/
theorem BInv.fill {B : Nat} {s : BufS} {g : PFile} (Z : Zlib) (h : BInv B s g) (hw : s.nw = 0) (hr : s.nr ≥ s.nl) :
    ∃ s', s.fill Z = .ok (decide (0 < ((g.bytes.drop g.pos).take B).length), s') ∧ BInv B s' g ∧ s'.nw = 0 ∧ s'.nr = 0 ∧
      s'.nl = ((g.bytes.drop g.pos).take B).length := by
  have hb : g.bytes = s.f.bytes := by rw [h.hbytes, hw]; simp [splice_nil]
  have hp := h.hpos
  have hnr := h.hnr
  have hph := h.hph
  have hpos : g.pos = s.f.pos := by omega
  have hle : ((g.bytes.drop g.pos).take B).length ≤ B := by simp
  have hsf : s.f = g := by
    cases hg : g; cases hs : s.f
    rw [hg, hs] at hb hpos
    simp only at hb hpos
    rw [hb, hpos]
  have hfit : 0 + ((g.bytes.drop g.pos).take B).length ≤ s.buf.length := by rw [h.hbuf]; omega
  have e : s.fill Z = .ok (decide (0 < ((g.bytes.drop g.pos).take B).length),
      { s with f := { g with pos := g.pos + ((g.bytes.drop g.pos).take B).length },
               buf := s.buf.take 0 ++ (g.bytes.drop g.pos).take B ++ s.buf.drop (0 + ((g.bytes.drop g.pos).take B).length),
               nl := ((g.bytes.drop g.pos).take B).length, nr := 0, nw := 0 }) := by
    unfold BufS.fill
    rw [if_pos h.hcomp, hsf, h.hbuf]
    show (do let buf ← putAt s.buf 0 ((g.bytes.drop g.pos).take B); _) = _
    rw [putAt_ok hfit]
    rfl
  refine ⟨_, e, ⟨h.hB, ?_, Nat.zero_le _, hle, Nat.zero_le _, Or.inr rfl, ?_, ?_, h.hcomp, ?_, ?_⟩, rfl, rfl, rfl⟩
  · simp only; rw [put_length hfit, h.hbuf]
  · simp only; omega
  · simp only
    have e : g.pos + ((g.bytes.drop g.pos).take B).length - ((g.bytes.drop g.pos).take B).length = g.pos := by omega
    rw [e]
    have := put_take hfit
    simp only [Nat.zero_add, List.take_zero, List.nil_append] at this ⊢
    rw [this]
    rw [List.take_eq_take_iff]
    simp
  · simp only [List.take_zero, splice_nil]
  · simp only; omega

theorem BInv.readLoop {B : Nat} (Z : Zlib) (fuel : Nat) {s : BufS} {g : PFile} (h : BInv B s g) (hw : s.nw = 0) (count : Nat)
    (hf : count < fuel) :
    ∃ s', BufS.readLoop Z fuel s count = .ok ((g.bytes.drop g.pos).take count, s') ∧
      BInv B s' { g with pos := g.pos + ((g.bytes.drop g.pos).take count).length } := by
  induction fuel generalizing s g count with
  | zero => omega
  | succ fuel ih =>
    unfold BufS.readLoop
    by_cases hc : count = 0
    · rw [if_pos hc, hc]
      exact ⟨s, by simp, by simpa using h⟩
    · rw [if_neg hc]
      -- state with something in the buffer
      have core : ∀ s1 : BufS, BInv B s1 g → s1.nw = 0 → s1.nr < s1.nl →
          ∃ s', (do
            let q ← BufS.readLoop Z fuel { s1 with nr := s1.nr + (s1.avail.take count).length } (count - (s1.avail.take count).length)
            (.ok ((s1.avail.take count) ++ q.1, q.2) : Res _)) = .ok ((g.bytes.drop g.pos).take count, s') ∧
            BInv B s' { g with pos := g.pos + ((g.bytes.drop g.pos).take count).length } := by
        intro s1 h1 hw1 hlt
        obtain ⟨n, hn⟩ : ∃ n, n = min count (s1.nl - s1.nr) := ⟨_, rfl⟩
        have hnle : n ≤ s1.nl - s1.nr := by omega
        have hal : s1.avail.length = s1.nl - s1.nr := by
          have := (h1.avail hw1 (s1.nl - s1.nr) (le_refl _)).2
          rw [List.length_take] at this
          have h2 : s1.avail.length ≤ s1.nl - s1.nr := by
            unfold BufS.avail
            simp; omega
          omega
        have htk : s1.avail.take count = s1.avail.take n := by
          rw [List.take_eq_take_iff, hal]; omega
        obtain ⟨e1, e2⟩ := h1.avail hw1 n hnle
        rw [htk, e2]
        have hadv := h1.advance hw1 n hnle
        obtain ⟨s', e3, e4⟩ := ih hadv hw1 (count - n) (by omega)
        rw [e3]
        refine ⟨s', ?_, ?_⟩
        · simp only [Res.bind_ok, e1]
          congr 2
          rw [← List.drop_drop]
          conv_rhs => rw [show count = n + (count - n) by omega, List.take_add]
        · have hlen : n + ((g.bytes.drop (g.pos + n)).take (count - n)).length = ((g.bytes.drop g.pos).take count).length := by
            rw [e1] at e2
            simp only [List.length_take, List.length_drop] at e2 ⊢
            omega
          simp only at e4
          rw [Nat.add_assoc, hlen] at e4
          exact e4
      by_cases hr : s.nr ≥ s.nl
      · rw [if_pos hr]
        obtain ⟨s1, e1, h1, hw1, hr1, hl1⟩ := h.fill Z hw hr
        rw [e1]
        simp only [Res.bind_ok]
        by_cases hz : ((g.bytes.drop g.pos).take B).length = 0
        · rw [hz]
          simp only [Nat.lt_irrefl, decide_false, if_true]
          have hd : g.bytes.drop g.pos = [] := by
            have := h.hB
            rw [List.length_eq_zero_iff, List.take_eq_nil_iff] at hz
            rcases hz with hz | hz
            · omega
            · exact hz
          rw [hd]
          exact ⟨s1, by simp, by simpa using h1⟩
        · have hpos : 0 < ((g.bytes.drop g.pos).take B).length := by omega
          simp only [hpos, decide_true, Bool.true_eq_false, if_false]
          exact core s1 h1 hw1 (by omega)
      · rw [if_neg hr]
        simp only [Res.bind_ok, Bool.true_eq_false, if_false]
        exact core s h hw (by omega)

theorem BInv.read {B : Nat} (Z : Zlib) {s : BufS} {g : PFile} (h : BInv B s g) (n : Nat) :
    ∃ s', s.read Z n = .ok ((g.read n).1, s') ∧ BInv B s' (g.read n).2 := by
  unfold BufS.read PFile.read
  simp only
  have key : ∀ s1 : BufS, BInv B s1 g → s1.nw = 0 →
      ∃ s', (if n ≤ s1.nl - s1.nr then (.ok (s1.avail.take n, { s1 with nr := s1.nr + n }) : Res _)
        else BufS.readLoop Z (n + 1) s1 n) = .ok ((g.bytes.drop g.pos).take n, s') ∧
        BInv B s' { g with pos := g.pos + ((g.bytes.drop g.pos).take n).length } := by
    intro s1 h1 hw1
    split
    · rename_i hn
      obtain ⟨e1, e2⟩ := h1.avail hw1 n hn
      refine ⟨_, by rw [e1], ?_⟩
      rw [e1] at e2
      rw [e2]
      exact h1.advance hw1 n hn
    · exact h1.readLoop Z (n + 1) hw1 n (by omega)
  split
  · exact key _ (h.flush Z).1 (h.flush Z).2
  · rename_i hw
    exact key s h (by omega)

/-- appending to the write buffer -/
theorem BInv.append {B : Nat} {s : BufS} {g : PFile} (h : BInv B s g) (hl : s.nl = 0) (bs : List UInt8)
    (hfit : s.nw + bs.length ≤ s.buf.length) :
    BInv B { s with buf := s.buf.take s.nw ++ bs ++ s.buf.drop (s.nw + bs.length), nw := s.nw + bs.length } (g.write bs) := by
  have hb := h.hbuf
  have hlen : (s.buf.take s.nw).length = s.nw := by rw [List.length_take]; omega
  have hr0 : s.nr = 0 := by have := h.hnr; omega
  refine ⟨h.hB, ?_, h.hnr, h.hnl, ?_, Or.inl hl, h.hph, ?_, h.hcomp, ?_, ?_⟩
  · simp only; rw [put_length hfit, hb]
  · simp only; omega
  · simp [hl]
  · simp only [put_take hfit, PFile.write]
    rw [h.hbytes]
    have hp : g.pos = s.f.pos + (s.buf.take s.nw).length := by rw [h.hpos, hlen]; omega
    rw [hp, splice_splice]
  · simp only [PFile.write, h.hpos]; omega

theorem PFile.write_write (g : PFile) (a b : List UInt8) : (g.write a).write b = g.write (a ++ b) := by
  simp only [PFile.write, splice_splice, List.length_append, Nat.add_assoc]

theorem PFile.write_nil (g : PFile) : g.write [] = g := by
  simp [PFile.write, splice_nil]

theorem flush_buf (Z : Zlib) (s : BufS) : (s.flush Z).buf = s.buf := by
  unfold BufS.flush
  split
  · rfl
  · split <;> rfl

theorem BInv.flush_nl {B : Nat} {s : BufS} {g : PFile} (Z : Zlib) (_ : BInv B s g) (hl : s.nl = 0) :
    (s.flush Z).nl = 0 := by
  unfold BufS.flush
  split
  · exact hl
  · split <;> rfl

theorem BInv.writeLoop {B : Nat} (Z : Zlib) (fuel : Nat) {s : BufS} {g : PFile} (h : BInv B s g) (hl : s.nl = 0) (bs : List UInt8)
    (hf : 2 * bs.length + (if s.nw = B then 1 else 0) < fuel) :
    ∃ s', BufS.writeLoop Z fuel s bs = .ok s' ∧ BInv B s' (g.write bs) := by
  induction fuel generalizing s g bs with
  | zero => omega
  | succ fuel ih =>
    unfold BufS.writeLoop
    by_cases hc : bs = []
    · rw [if_pos hc, hc]
      exact ⟨s, rfl, by rw [PFile.write_nil]; exact h⟩
    · rw [if_neg hc]
      have hbuf := h.hbuf
      have hnw := h.hnw
      have hB := h.hB
      obtain ⟨n, hn⟩ : ∃ n, n = min bs.length (s.buf.length - s.nw) := ⟨_, rfl⟩
      rw [← hn]
      have hcl : 0 < bs.length := List.length_pos_iff.mpr hc
      have htl : (bs.take n).length = n := by rw [List.length_take]; omega
      have hfit : s.nw + (bs.take n).length ≤ s.buf.length := by omega
      simp only [putAt_ok hfit, Res.bind_ok]
      have h1 := h.append hl (bs.take n) hfit
      rw [htl] at h1 hfit
      generalize hs1 : ({ s with buf := s.buf.take s.nw ++ bs.take n ++ s.buf.drop (s.nw + n), nw := s.nw + n } : BufS) = s1 at *
      have hs1b : s1.buf.length = B := h1.hbuf
      have hs1w : s1.nw = s.nw + n := by rw [← hs1]
      have hs1l : s1.nl = 0 := by rw [← hs1]; exact hl
      have hbs : bs = bs.take n ++ bs.drop n := (List.take_append_drop n bs).symm
      have hgw : g.write bs = (g.write (bs.take n)).write (bs.drop n) := by
        rw [PFile.write_write, List.take_append_drop]
      have hdl : (bs.drop n).length = bs.length - n := List.length_drop
      have e : ∀ x, (∃ s', BufS.writeLoop Z fuel (if s1.nw ≥ s1.buf.length then s1.flush Z else s1) (bs.drop n) = .ok s' ∧ BInv B s' x) →
          ∃ s', BufS.writeLoop Z fuel (if ({ s with buf := s.buf.take s.nw ++ bs.take n ++ s.buf.drop (s.nw + n), nw := s.nw + n } : BufS).nw ≥
            ({ s with buf := s.buf.take s.nw ++ bs.take n ++ s.buf.drop (s.nw + n), nw := s.nw + n } : BufS).buf.length then
            ({ s with buf := s.buf.take s.nw ++ bs.take n ++ s.buf.drop (s.nw + n), nw := s.nw + n } : BufS).flush Z else
            { s with buf := s.buf.take s.nw ++ bs.take n ++ s.buf.drop (s.nw + n), nw := s.nw + n }) (bs.drop n) = .ok s' ∧ BInv B s' x := by
        intro x hx; rw [hs1]; exact hx
      simp only [htl]
      refine e _ ?_
      rw [hgw]
      split
      · rename_i hge
        have hfl := h1.flush Z
        apply ih hfl.1 (h1.flush_nl Z hs1l)
        rw [hdl, hfl.2, if_neg (by omega)]
        by_cases hnB : s.nw = B
        · rw [if_pos hnB] at hf; omega
        · rw [if_neg hnB] at hf; omega
      · rename_i hge
        apply ih h1 hs1l
        rw [hdl, if_neg (by omega)]
        by_cases hnB : s.nw = B
        · omega
        · rw [if_neg hnB] at hf; omega

theorem BInv.write {B : Nat} (Z : Zlib) {s : BufS} {g : PFile} (h : BInv B s g) (bs : List UInt8) :
    ∃ s', s.write Z bs = .ok s' ∧ BInv B s' (g.write bs) := by
  have key : ∀ s1 : BufS, BInv B s1 g → s1.nl = 0 →
      ∃ s', (if bs.length ≤ s1.buf.length - s1.nw then do
          let buf ← putAt s1.buf s1.nw bs
          (.ok { s1 with buf := buf, nw := s1.nw + bs.length } : Res BufS)
        else BufS.writeLoop Z (2 * bs.length + 2) s1 bs) = .ok s' ∧ BInv B s' (g.write bs) := by
    intro s1 h1 hl1
    have := h1.hbuf
    have := h1.hnw
    split
    · rename_i hle
      have hfit : s1.nw + bs.length ≤ s1.buf.length := by omega
      rw [putAt_ok hfit]
      exact ⟨_, rfl, h1.append hl1 bs hfit⟩
    · apply h1.writeLoop Z _ hl1
      split <;> omega
  unfold BufS.write
  by_cases hl : s.nl > 0
  · rw [if_pos hl, if_neg (by have := h.hph; omega)]
    simp only [Res.bind_ok]
    have hw : s.nw = 0 := by rcases h.hex with h1 | h1 <;> omega
    refine key { s with f := s.f.seek (s.f.pos + s.nr - s.nl), nl := 0, nr := 0 } ?_ ?_
    · refine ⟨h.hB, h.hbuf, le_refl _, Nat.zero_le _, h.hnw, Or.inl rfl, Nat.zero_le _, by simp, h.hcomp, ?_, ?_⟩
      · simp only [PFile.seek]
        rw [h.hbytes, hw]
        simp [splice_nil]
      · have hp := h.hpos
        have := h.hph
        simp only [PFile.seek]
        omega
    · rfl
  · rw [if_neg hl]
    simp only [Res.bind_ok]
    exact key s h (by omega)

theorem BInv.seekLoaded {B : Nat} {s : BufS} {g : PFile} (h : BInv B s g) (hw : s.nw = 0) (p : Nat) :
    BInv B (s.seekLoaded p) (g.seek p) := by
  have hb : g.bytes = s.f.bytes := by rw [h.hbytes, hw]; simp [splice_nil]
  have hph := h.hph
  unfold BufS.seekLoaded
  split
  · rename_i hc
    obtain ⟨c1, _, c3, c4⟩ := hc
    refine ⟨h.hB, h.hbuf, ?_, h.hnl, h.hnw, h.hex, h.hph, h.hload, h.hcomp, ?_, ?_⟩
    · simp only; omega
    · simp only [PFile.seek]; exact h.hbytes
    · simp only [PFile.seek]; omega
  · refine ⟨h.hB, h.hbuf, le_refl _, Nat.zero_le _, h.hnw, Or.inl rfl, Nat.zero_le _, by simp, h.hcomp, ?_, ?_⟩
    · simp only [PFile.seek]
      rw [hb, hw]
      simp [splice_nil]
    · simp only [PFile.seek]; omega

theorem BInv.setPos {B : Nat} (Z : Zlib) {s : BufS} {g : PFile} (h : BInv B s g) (p : Nat) :
    BInv B (s.setPos Z p) (g.seek p) := by
  unfold BufS.setPos
  split
  · rename_i hw
    split
    · rename_i hc
      have hl : s.nl = 0 := by rcases h.hex with h1 | h1 <;> omega
      have hp := h.hpos
      have hnr := h.hnr
      have e : g.seek p = g := by
        have : g.pos = p := by rw [hc.1]; omega
        unfold PFile.seek
        rw [← this]
      rw [e]; exact h
    · exact (h.flush Z).1.seekLoaded (h.flush Z).2 p
  · rename_i hw
    exact h.seekLoaded (by omega) p

theorem BInv.getPos {B : Nat} (Z : Zlib) {s : BufS} {g : PFile} (h : BInv B s g) :
    s.getPos Z = .ok (g.pos, s) := by
  unfold BufS.getPos
  have hp := h.hpos
  have hph := h.hph
  split
  · rename_i hw
    rw [if_neg (by omega)]
    congr 2
    omega
  · rename_i hw
    rw [h.hcomp]
    simp only [Bool.false_eq_true, if_false]
    have hl : s.nl = 0 := by rcases h.hex with h1 | h1 <;> omega
    have := h.hnr
    congr 2
    omega

theorem BInv.step {B : Nat} (Z : Zlib) {s : BufS} {g : PFile} (h : BInv B s g) (o : SOp) :
    ∃ s', s.step Z o = .ok ((g.step o).1, s') ∧ BInv B s' (g.step o).2 := by
  cases o with
  | read n =>
    obtain ⟨s', e, h'⟩ := h.read Z n
    exact ⟨s', by simp [BufS.step, e, PFile.step], h'⟩
  | write bs =>
    obtain ⟨s', e, h'⟩ := h.write Z bs
    exact ⟨s', by simp [BufS.step, e, PFile.step], h'⟩
  | seek p => exact ⟨_, rfl, h.setPos Z p⟩
  | getPos => exact ⟨s, by simp [BufS.step, h.getPos Z, PFile.step], h⟩

theorem BInv.run {B : Nat} (Z : Zlib) (os : List SOp) {s : BufS} {g : PFile} (h : BInv B s g) :
    ∃ s', s.run Z os = .ok ((g.run os).1, s') ∧ BInv B s' (g.run os).2 := by
  induction os generalizing s g with
  | nil => exact ⟨s, rfl, h⟩
  | cons o os ih =>
    obtain ⟨s1, e1, h1⟩ := h.step Z o
    obtain ⟨s2, e2, h2⟩ := ih h1
    exact ⟨s2, by simp [BufS.run, e1, e2, PFile.run], h2⟩

end Gdx
