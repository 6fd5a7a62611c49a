import Verif.Proofs.BufStream

/-! The compressed part of the buffered stream. -/

namespace Gdx
open BufS

/-- zlib inverts itself on pieces up to the buffer size -/
def Zlib.Good (Z : Zlib) (B : Nat) : Prop := ∀ x : List UInt8, x.length ≤ B → Z.uncompress (Z.compress x) = some x

theorem splice_drop (f : List UInt8) (p : Nat) {bs : List UInt8} (hb : bs ≠ []) :
    (splice f p bs).drop p = bs ++ f.drop (p + bs.length) := by
  have hl : ((f ++ List.replicate (p - f.length) 0).take p).length = p := by simp; omega
  unfold splice
  rw [if_neg hb]
  rw [List.append_assoc, List.drop_append_of_le_length (by omega), List.drop_of_length_le (by omega)]
  rfl

/-- chunks as written by FlushBuffer -/
def GoodChunks (B : Nat) (cs : List (List UInt8)) : Prop := ∀ c ∈ cs, c ≠ [] ∧ c.length ≤ B

/-- writer invariant: `data` has been written since position `p` of the file `f0` -/
structure WInv (Z : Zlib) (B : Nat) (f0 : List UInt8) (p : Nat) (s : BufS) (data : List UInt8) : Prop where
  hB : 0 < B
  hbuf : s.buf.length = B
  hnl : s.nl = 0
  hnw : s.nw ≤ B
  hcomp : s.comp = true
  hch : ∃ cs, GoodChunks B cs ∧ cs.flatten ++ s.buf.take s.nw = data ∧
    s.f = (PFile.mk f0 p).write (cs.flatMap (block Z))

theorem WInv.flush {Z : Zlib} {B : Nat} {f0 : List UInt8} {p : Nat} {s : BufS} {data : List UInt8}
    (h : WInv Z B f0 p s data) : WInv Z B f0 p (s.flush Z) data ∧ (s.flush Z).nw = 0 := by
  unfold BufS.flush
  split
  · exact ⟨h, by assumption⟩
  · rename_i hn
    rw [if_neg (by rw [h.hcomp]; simp)]
    obtain ⟨cs, hg, hd, hf⟩ := h.hch
    have hlen : (s.buf.take s.nw).length = s.nw := by rw [List.length_take, h.hbuf]; have := h.hnw; omega
    refine ⟨⟨h.hB, h.hbuf, rfl, Nat.zero_le _, h.hcomp, cs ++ [s.buf.take s.nw], ?_, ?_, ?_⟩, rfl⟩
    · intro c hc
      rw [List.mem_append, List.mem_singleton] at hc
      rcases hc with hc | hc
      · exact hg c hc
      · subst hc
        refine ⟨fun h0 => ?_, by rw [hlen]; exact h.hnw⟩
        rw [h0] at hlen
        simp at hlen
        omega
    · simpa using hd
    · simp only [hf, PFile.write_write]
      simp

theorem WInv.append {Z : Zlib} {B : Nat} {f0 : List UInt8} {p : Nat} {s : BufS} {data : List UInt8}
    (h : WInv Z B f0 p s data) (bs : List UInt8) (hfit : s.nw + bs.length ≤ s.buf.length) :
    WInv Z B f0 p { s with buf := s.buf.take s.nw ++ bs ++ s.buf.drop (s.nw + bs.length), nw := s.nw + bs.length } (data ++ bs) := by
  obtain ⟨cs, hg, hd, hf⟩ := h.hch
  have hb := h.hbuf
  refine ⟨h.hB, ?_, h.hnl, ?_, h.hcomp, cs, hg, ?_, hf⟩
  · simp only; rw [put_length hfit, hb]
  · simp only; omega
  · simp only [put_take hfit]
    rw [← hd]; simp

theorem WInv.writeLoop {Z : Zlib} {B : Nat} {f0 : List UInt8} {p : Nat} (fuel : Nat) {s : BufS} {data : List UInt8}
    (h : WInv Z B f0 p s data) (bs : List UInt8) (hf : 2 * bs.length + (if s.nw = B then 1 else 0) < fuel) :
    ∃ s', BufS.writeLoop Z fuel s bs = .ok s' ∧ WInv Z B f0 p s' (data ++ bs) := by
  induction fuel generalizing s data bs with
  | zero => omega
  | succ fuel ih =>
    unfold BufS.writeLoop
    by_cases hc : bs = []
    · rw [if_pos hc, hc]
      exact ⟨s, rfl, by simpa using h⟩
    · rw [if_neg hc]
      have hbuf := h.hbuf
      have hnw := h.hnw
      have hB := h.hB
      obtain ⟨n, hn⟩ : ∃ n, n = min bs.length (s.buf.length - s.nw) := ⟨_, rfl⟩
      rw [← hn]
      have hcl : 0 < bs.length := List.length_pos_iff.mpr hc
      have htl : (bs.take n).length = n := by rw [List.length_take]; omega
      have hfit : s.nw + (bs.take n).length ≤ s.buf.length := by omega
      simp only [putAt_ok hfit, Res.bind_ok]
      have h1 := h.append (bs.take n) hfit
      rw [htl] at h1 hfit
      generalize hs1 : ({ s with buf := s.buf.take s.nw ++ bs.take n ++ s.buf.drop (s.nw + n), nw := s.nw + n } : BufS) = s1 at *
      have hs1b : s1.buf.length = B := h1.hbuf
      have hs1w : s1.nw = s.nw + n := by rw [← hs1]
      have hgw : data ++ bs = data ++ bs.take n ++ bs.drop n := by
        rw [List.append_assoc, List.take_append_drop]
      have hdl : (bs.drop n).length = bs.length - n := List.length_drop
      have e : ∀ x, (∃ s', BufS.writeLoop Z fuel (if s1.nw ≥ s1.buf.length then s1.flush Z else s1) (bs.drop n) = .ok s' ∧ WInv Z B f0 p s' x) →
          ∃ s', BufS.writeLoop Z fuel (if ({ s with buf := s.buf.take s.nw ++ bs.take n ++ s.buf.drop (s.nw + n), nw := s.nw + n } : BufS).nw ≥
            ({ s with buf := s.buf.take s.nw ++ bs.take n ++ s.buf.drop (s.nw + n), nw := s.nw + n } : BufS).buf.length then
            ({ s with buf := s.buf.take s.nw ++ bs.take n ++ s.buf.drop (s.nw + n), nw := s.nw + n } : BufS).flush Z else
            { s with buf := s.buf.take s.nw ++ bs.take n ++ s.buf.drop (s.nw + n), nw := s.nw + n }) (bs.drop n) = .ok s' ∧ WInv Z B f0 p s' x := by
        intro x hx; rw [hs1]; exact hx
      simp only [htl]
      refine e _ ?_
      rw [hgw]
      split
      · rename_i hge
        have hfl := h1.flush
        apply ih hfl.1
        rw [hdl, hfl.2, if_neg (by omega)]
        by_cases hnB : s.nw = B
        · rw [if_pos hnB] at hf; omega
        · rw [if_neg hnB] at hf; omega
      · rename_i hge
        apply ih h1
        rw [hdl, if_neg (by omega)]
        by_cases hnB : s.nw = B
        · omega
        · rw [if_neg hnB] at hf; omega

theorem WInv.write {Z : Zlib} {B : Nat} {f0 : List UInt8} {p : Nat} {s : BufS} {data : List UInt8}
    (h : WInv Z B f0 p s data) (bs : List UInt8) :
    ∃ s', s.write Z bs = .ok s' ∧ WInv Z B f0 p s' (data ++ bs) := by
  unfold BufS.write
  have hl := h.hnl
  rw [if_neg (by omega)]
  simp only [Res.bind_ok]
  have := h.hbuf
  have := h.hnw
  split
  · have hfit : s.nw + bs.length ≤ s.buf.length := by omega
    rw [putAt_ok hfit]
    exact ⟨_, rfl, h.append bs hfit⟩
  · apply h.writeLoop
    split <;> omega

theorem WInv.getPos {Z : Zlib} {B : Nat} {f0 : List UInt8} {p : Nat} {s : BufS} {data : List UInt8}
    (h : WInv Z B f0 p s data) : ∃ n s', s.getPos Z = .ok (n, s') ∧ WInv Z B f0 p s' data := by
  unfold BufS.getPos
  split
  · have := h.hnl
    rw [if_neg (by omega)]
    exact ⟨_, s, rfl, h⟩
  · simp only [h.hcomp, if_true]
    exact ⟨_, _, rfl, h.flush.1⟩

/-- reader invariant: `rest` are the bytes still to come from the blocks, `tail` is whatever follows in the file -/
structure RInv (Z : Zlib) (B : Nat) (s : BufS) (rest tail : List UInt8) : Prop where
  hbuf : s.buf.length = B
  hnr : s.nr ≤ s.nl
  hnl : s.nl ≤ B
  hnw : s.nw = 0
  hcomp : s.comp = true
  hch : ∃ cs, GoodChunks B cs ∧ rest = s.avail ++ cs.flatten ∧ s.f.bytes.drop s.f.pos = cs.flatMap (block Z) ++ tail

theorem hdr_len {n : Nat} (h : n ≤ 65535) :
    (UInt8.ofNat (n / 256)).toNat * 256 + (UInt8.ofNat (n % 256)).toNat = n := by
  rw [UInt8.toNat_ofNat', UInt8.toNat_ofNat']
  omega

theorem read_of_drop {f : PFile} {a t : List UInt8} {n : Nat} (h : f.bytes.drop f.pos = a ++ t) (hn : a.length = n) :
    (f.read n).1 = a ∧ (f.read n).2.bytes.drop (f.read n).2.pos = t := by
  subst hn
  unfold PFile.read
  simp only [h, List.take_left', true_and]
  rw [← List.drop_drop, h]
  simp

/-- FillBuffer loads exactly the next block -/
theorem fill_block {Z : Zlib} {B : Nat} (hZ : Z.Good B) (hB : B ≤ 65535) {s : BufS} (hbuf : s.buf.length = B)
    (hcomp : s.comp = true) {c t : List UInt8} (hc : c ≠ [] ∧ c.length ≤ B)
    (hd : s.f.bytes.drop s.f.pos = block Z c ++ t) :
    ∃ s', s.fill Z = .ok (true, s') ∧ s'.buf.length = B ∧ s'.comp = true ∧ s'.nr = 0 ∧ s'.nw = 0 ∧ s'.nl = c.length ∧
      s'.buf.take s'.nl = c ∧ s'.f.bytes.drop s'.f.pos = t := by
  have hfit : 0 + c.length ≤ s.buf.length := by omega
  have hput := put_take hfit
  simp only [Nat.zero_add, List.take_zero, List.nil_append] at hput
  have hpl := put_length hfit
  simp only [Nat.zero_add, List.take_zero, List.nil_append] at hpl
  have hpos : 0 < c.length := List.length_pos_iff.mpr hc.1
  unfold BufS.fill
  rw [if_neg (by rw [hcomp]; simp)]
  unfold block at hd
  simp only at hd
  split at hd
  · rename_i hlt
    have hd' : s.f.bytes.drop s.f.pos = [1, UInt8.ofNat ((Z.compress c).length / 256), UInt8.ofNat ((Z.compress c).length % 256)] ++ (Z.compress c ++ t) := by
      rw [hd]; simp
    obtain ⟨e1, e2⟩ := read_of_drop (n := 3) hd' rfl
    simp only [e1]
    rw [hdr_len (by omega)]
    obtain ⟨e3, e4⟩ := read_of_drop (n := (Z.compress c).length) e2 rfl
    rw [if_neg (by decide)]
    simp only [e3]
    rw [hZ c hc.2]
    simp only [putAt_ok hfit, Res.bind_ok, hpos, decide_true]
    refine ⟨_, rfl, ?_, hcomp, rfl, rfl, rfl, ?_, e4⟩
    · simp only [Nat.zero_add, List.take_zero, List.nil_append]; omega
    · simp only [Nat.zero_add, List.take_zero, List.nil_append]; exact hput
  · rename_i hlt
    have hd' : s.f.bytes.drop s.f.pos = [0, UInt8.ofNat (c.length / 256), UInt8.ofNat (c.length % 256)] ++ (c ++ t) := by
      rw [hd]; simp
    obtain ⟨e1, e2⟩ := read_of_drop (n := 3) hd' rfl
    simp only [e1]
    rw [hdr_len (by omega)]
    obtain ⟨e3, e4⟩ := read_of_drop (n := c.length) e2 rfl
    rw [if_pos trivial]
    simp only [e3]
    simp only [putAt_ok hfit, Res.bind_ok, hpos, decide_true]
    refine ⟨_, rfl, ?_, hcomp, rfl, rfl, rfl, ?_, e4⟩
    · simp only [Nat.zero_add, List.take_zero, List.nil_append]; omega
    · simp only [Nat.zero_add, List.take_zero, List.nil_append]; exact hput

theorem RInv.avail_len {Z : Zlib} {B : Nat} {s : BufS} {rest tail : List UInt8} (h : RInv Z B s rest tail) :
    s.avail.length = s.nl - s.nr := by
  unfold BufS.avail
  rw [List.length_drop, List.length_take, h.hbuf]
  have := h.hnl
  omega

theorem RInv.advance {Z : Zlib} {B : Nat} {s : BufS} {rest tail : List UInt8} (h : RInv Z B s rest tail) (n : Nat)
    (hn : n ≤ s.nl - s.nr) :
    s.avail.take n = rest.take n ∧ RInv Z B { s with nr := s.nr + n } (rest.drop n) tail := by
  obtain ⟨cs, hg, hr, hd⟩ := h.hch
  have hal := h.avail_len
  have := h.hnr
  constructor
  · rw [hr, List.take_append_of_le_length (by omega)]
  · refine ⟨h.hbuf, by simp only; omega, h.hnl, h.hnw, h.hcomp, cs, hg, ?_, hd⟩
    rw [hr, List.drop_append_of_le_length (by omega)]
    congr 1
    unfold BufS.avail
    rw [List.drop_drop]

theorem RInv.readLoop {Z : Zlib} {B : Nat} (hZ : Z.Good B) (hB : B ≤ 65535) (fuel : Nat) {s : BufS} {rest tail : List UInt8}
    (h : RInv Z B s rest tail) (count : Nat) (hc : count ≤ rest.length) (hf : count < fuel) :
    ∃ s', BufS.readLoop Z fuel s count = .ok (rest.take count, s') ∧ RInv Z B s' (rest.drop count) tail := by
  induction fuel generalizing s rest count with
  | zero => omega
  | succ fuel ih =>
    unfold BufS.readLoop
    by_cases h0 : count = 0
    · rw [if_pos h0, h0]
      exact ⟨s, by simp, by simpa using h⟩
    · rw [if_neg h0]
      have core : ∀ s1 : BufS, RInv Z B s1 rest tail → s1.nr < s1.nl →
          ∃ s', (do
            let q ← BufS.readLoop Z fuel { s1 with nr := s1.nr + (s1.avail.take count).length } (count - (s1.avail.take count).length)
            (.ok ((s1.avail.take count) ++ q.1, q.2) : Res _)) = .ok (rest.take count, s') ∧
            RInv Z B s' (rest.drop count) tail := by
        intro s1 h1 hlt
        obtain ⟨n, hn⟩ : ∃ n, n = min count (s1.nl - s1.nr) := ⟨_, rfl⟩
        have hal := h1.avail_len
        have htk : s1.avail.take count = s1.avail.take n := by
          rw [List.take_eq_take_iff, hal]; omega
        have hln : (s1.avail.take n).length = n := by rw [List.length_take, hal]; omega
        rw [htk, hln]
        obtain ⟨e1, h2⟩ := h1.advance n (by omega)
        obtain ⟨s', e3, h3⟩ := ih h2 (count - n) (by rw [List.length_drop]; omega) (by omega)
        rw [e3]
        refine ⟨s', ?_, ?_⟩
        · simp only [Res.bind_ok, e1]
          congr 2
          conv_rhs => rw [show count = n + (count - n) by omega, List.take_add]
        · rw [List.drop_drop, show n + (count - n) = count by omega] at h3
          exact h3
      by_cases hr : s.nr ≥ s.nl
      · rw [if_pos hr]
        obtain ⟨cs, hg, he, hd⟩ := h.hch
        have hav : s.avail = [] := by
          rw [← List.length_eq_zero_iff, h.avail_len]; omega
        rw [hav, List.nil_append] at he
        cases cs with
        | nil =>
          rw [he] at hc; simp at hc; omega
        | cons c cs =>
          rw [List.flatMap_cons, List.append_assoc] at hd
          obtain ⟨s1, e1, i1, i2, i3, i4, i5, i6, i7⟩ := fill_block hZ hB h.hbuf h.hcomp (hg c (List.mem_cons_self ..)) hd
          rw [e1]
          simp only [Res.bind_ok, Bool.true_eq_false, if_false]
          have hcc := hg c (List.mem_cons_self ..)
          have hcp : 0 < c.length := List.length_pos_iff.mpr hcc.1
          apply core
          · refine ⟨i1, by omega, by rw [i5]; exact hcc.2, i4, i2, cs, fun x hx => hg x (List.mem_cons_of_mem _ hx), ?_, i7⟩
            rw [he, BufS.avail, i6, i3]
            simp
          · omega
      · rw [if_neg hr]
        simp only [Res.bind_ok, Bool.true_eq_false, if_false]
        exact core s h (by omega)

theorem RInv.read {Z : Zlib} {B : Nat} (hZ : Z.Good B) (hB : B ≤ 65535) {s : BufS} {rest tail : List UInt8}
    (h : RInv Z B s rest tail) (n : Nat) (hn : n ≤ rest.length) :
    ∃ s', s.read Z n = .ok (rest.take n, s') ∧ RInv Z B s' (rest.drop n) tail := by
  unfold BufS.read
  simp only [h.hnw, Nat.lt_irrefl, gt_iff_lt, if_false]
  split
  · rename_i hle
    obtain ⟨e1, h2⟩ := h.advance n hle
    exact ⟨_, by rw [e1, h.hnw], h2⟩
  · exact h.readLoop hZ hB _ n hn (by omega)

end Gdx
