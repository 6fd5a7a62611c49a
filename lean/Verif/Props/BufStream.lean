import Verif.Proofs.BufComp

/-! C19: the buffered stream is a transparent byte file. C20: compression does not change the data. -/

namespace Gdx.Props
open Gdx

/-- C19: any history of reads, writes, seeks and position queries on the buffered stream, with any buffer size, gives the
    same results as the same history directly on the file, and after flushing leaves the same file. -/
theorem C19_transparent (Z : Zlib) (B : Nat) (hB : 0 < B) (f : PFile) (ops : List SOp) :
    ∃ s, (BufS.init B f).run Z ops = .ok ((f.run ops).1, s) ∧ (s.flush Z).f.bytes = (f.run ops).2.bytes := by
  obtain ⟨s, h1, h2⟩ := (BInv.init hB f).run Z ops
  refine ⟨s, h1, ?_⟩
  have h3 := h2.flush Z
  rw [h3.1.hbytes, h3.2]
  simp [splice_nil]

-- buffer of 2 bytes; write over a buffer border, go back, read, overwrite, ask for the position
example : (PFile.run ⟨[1, 2, 3], 0⟩ [.read 1, .write [7, 8, 9], .seek 1, .read 5, .getPos]).1 =
    [.data [1], .none, .none, .data [7, 8, 9], .pos 4] := by decide

#print axioms C19_transparent

/-- what a writer does to a stream: writes, and position queries (which flush a compressed buffer) -/
inductive WOp
  | write (bs : List UInt8)
  | getPos
  deriving DecidableEq, Repr

def WOp.toSOp : WOp → SOp
  | .write bs => .write bs
  | .getPos => .getPos

/-- all bytes written, in order -/
def written : List WOp → List UInt8
  | [] => []
  | .write bs :: l => bs ++ written l
  | .getPos :: l => written l

/-- cut `d` into consecutive pieces of the given lengths -/
def pieces : List UInt8 → List Nat → List SOut
  | _, [] => []
  | d, n :: ns => .data (d.take n) :: pieces (d.drop n) ns

theorem writer_run {Z : Zlib} {B : Nat} {f0 : List UInt8} {p : Nat} (ws : List WOp) {s : BufS} {data : List UInt8}
    (h : WInv Z B f0 p s data) :
    ∃ outs s', s.run Z (ws.map WOp.toSOp) = .ok (outs, s') ∧ WInv Z B f0 p s' (data ++ written ws) := by
  induction ws generalizing s data with
  | nil => exact ⟨[], s, rfl, by simpa [written] using h⟩
  | cons w ws ih =>
    cases w with
    | write bs =>
      obtain ⟨s1, e1, h1⟩ := h.write bs
      obtain ⟨o, s2, e2, h2⟩ := ih h1
      exact ⟨.none :: o, s2, by simp [BufS.run, BufS.step, WOp.toSOp, e1, e2], by simpa [written] using h2⟩
    | getPos =>
      obtain ⟨n, s1, e1, h1⟩ := h.getPos
      obtain ⟨o, s2, e2, h2⟩ := ih h1
      exact ⟨.pos n :: o, s2, by simp [BufS.run, BufS.step, WOp.toSOp, e1, e2], by simpa [written] using h2⟩

theorem reader_run {Z : Zlib} {B : Nat} (hZ : Z.Good B) (hB : B ≤ 65535) (ns : List Nat) {s : BufS} {rest tail : List UInt8}
    (h : RInv Z B s rest tail) (hn : ns.sum ≤ rest.length) :
    ∃ s', s.run Z (ns.map SOp.read) = .ok (pieces rest ns, s') := by
  induction ns generalizing s rest with
  | nil => exact ⟨s, rfl⟩
  | cons n ns ih =>
    rw [List.sum_cons] at hn
    obtain ⟨s1, e1, h1⟩ := h.read hZ hB n (by omega)
    obtain ⟨s2, e2⟩ := ih h1 (by rw [List.length_drop]; omega)
    exact ⟨s2, by simp [BufS.run, BufS.step, e1, e2, pieces]⟩

/-- switching compression on and moving to a position, after any uncompressed history -/
theorem compSeek {B : Nat} (Z : Zlib) {s : BufS} {g : PFile} (h : BInv B s g) (p : Nat) :
    ((s.setComp Z true).setPos Z p).f = ⟨g.bytes, p⟩ ∧ ((s.setComp Z true).setPos Z p).buf.length = B ∧
    ((s.setComp Z true).setPos Z p).nl = 0 ∧ ((s.setComp Z true).setPos Z p).nr = 0 ∧
    ((s.setComp Z true).setPos Z p).nw = 0 ∧ ((s.setComp Z true).setPos Z p).comp = true := by
  have key : ∀ s1 : BufS, BInv B s1 g → s1.nw = 0 →
      ∀ t, t = (BufS.setPos Z { s1 with nl := 0, nr := 0, comp := true } p) →
      t.f = ⟨g.bytes, p⟩ ∧ t.buf.length = B ∧ t.nl = 0 ∧ t.nr = 0 ∧ t.nw = 0 ∧ t.comp = true := by
    intro s1 h1 hw t ht
    have hb : g.bytes = s1.f.bytes := by rw [h1.hbytes, hw]; simp [splice_nil]
    subst ht
    simp [BufS.setPos, BufS.seekLoaded, hw, PFile.seek, hb, h1.hbuf]
  by_cases hw : s.nw = 0
  · have e : s.setComp Z true = { s with nl := 0, nr := 0, comp := true } := by
      simp [BufS.setComp, hw, h.hcomp]
    rw [e]
    exact key s h hw _ rfl
  · obtain ⟨h1, h2⟩ := h.flush Z
    have e : s.setComp Z true = { s.flush Z with nl := 0, nr := 0, comp := true } := by
      have : (s.flush Z).comp = false := h1.hcomp
      simp [BufS.setComp, Nat.pos_of_ne_zero hw, this]
    rw [e]
    exact key _ h1 h2 _ rfl

/-- a history that only reads and moves -/
def ReadOnly (ops : List SOp) : Prop := ∀ o ∈ ops, ∀ bs, o ≠ .write bs

theorem readOnly_bytes {ops : List SOp} (h : ReadOnly ops) (f : PFile) : (f.run ops).2.bytes = f.bytes := by
  induction ops generalizing f with
  | nil => rfl
  | cons o os ih =>
    rw [PFile.run]
    simp only
    rw [ih (fun x hx => h x (List.mem_cons_of_mem _ hx))]
    cases o with
    | write bs => exact absurd rfl (h _ (List.mem_cons_self ..) bs)
    | _ => rfl

/-- C20: after any uncompressed history `ops0` of the stream, switch compression on, go anywhere, and write in any pieces
    and with position queries in between; then switch compression off (which flushes). Another stream on the resulting
    file that has read and moved around in any way (`ops1`), switches compression on, goes to the same place and reads in
    any pieces, gets exactly the bytes written, for every codec that inverts itself. The order of the two calls
    (compression, then position) is that of gxfile.cpp (545, 787/1173, 929, 1945, 2002, 2030, 2064, 2076). -/
theorem C20_roundtrip (Z : Zlib) (B : Nat) (hB : 0 < B) (hB2 : B ≤ 65535) (hZ : Z.Good B) (f : PFile) (ops0 ops1 : List SOp)
    (h1 : ReadOnly ops1) (p q : Nat) (ws : List WOp) (ns : List Nat) (hn : ns.sum ≤ (written ws).length) :
    ∃ o0 s0, (BufS.init B f).run Z ops0 = .ok (o0, s0) ∧
    ∃ outs s, ((s0.setComp Z true).setPos Z p).run Z (ws.map WOp.toSOp) = .ok (outs, s) ∧
    ∃ o1 s1, (BufS.init B ⟨(s.setComp Z false).f.bytes, q⟩).run Z ops1 = .ok (o1, s1) ∧
      ∃ s', ((s1.setComp Z true).setPos Z p).run Z (ns.map SOp.read) = .ok (pieces (written ws) ns, s') := by
  obtain ⟨s0, e0, i0⟩ := (BInv.init hB f).run Z ops0
  refine ⟨_, s0, e0, ?_⟩
  obtain ⟨a1, a2, a3, a4, a5, a6⟩ := compSeek Z i0 p
  have hw : WInv Z B (f.run ops0).2.bytes p ((s0.setComp Z true).setPos Z p) [] := by
    refine ⟨hB, a2, a3, by omega, a6, [], ?_, ?_, ?_⟩
    · simp [GoodChunks]
    · simp [a5]
    · rw [a1]; simp [PFile.write, splice_nil]
  obtain ⟨outs, s, e, h⟩ := writer_run ws hw
  refine ⟨outs, s, e, ?_⟩
  rw [List.nil_append] at h
  obtain ⟨hf, hf0⟩ := h.flush
  have hsf : (s.setComp Z false).f = (s.flush Z).f := by
    unfold BufS.setComp
    simp only [h.hcomp]
    by_cases hw0 : s.nw > 0
    · simp only [hw0, true_or, and_self, if_true]
      split <;> rfl
    · have h0 : s.nw = 0 := by omega
      have e0 : s.flush Z = s := by unfold BufS.flush; rw [if_pos h0]
      rw [e0]
      simp only [hw0, and_false, if_false]
      split <;> rfl
  obtain ⟨s1, e1, i1⟩ := (BInv.init hB ⟨(s.setComp Z false).f.bytes, q⟩).run Z ops1
  refine ⟨_, s1, e1, ?_⟩
  obtain ⟨b1, b2, b3, b4, b5, b6⟩ := compSeek Z i1 p
  rw [readOnly_bytes h1, hsf] at b1
  obtain ⟨cs, hg, hd, hff⟩ := hf.hch
  rw [hf0] at hd
  simp only [List.take_zero, List.append_nil] at hd
  by_cases hcs : cs.flatMap (BufS.block Z) = []
  · have hc0 : cs = [] := by
      cases cs with
      | nil => rfl
      | cons c cs =>
        rw [List.flatMap_cons, List.append_eq_nil_iff] at hcs
        have := hcs.1
        unfold BufS.block at this
        simp only at this
        split at this <;> simp at this
    refine reader_run hZ hB2 ns (rest := written ws) (tail := (s.flush Z).f.bytes.drop p)
      ⟨b2, by omega, by omega, b5, b6, [], ?_, ?_, ?_⟩ hn
    · simp [GoodChunks]
    · simp [BufS.avail, b3, ← hd, hc0]
    · rw [b1]; simp
  · refine reader_run hZ hB2 ns (rest := written ws)
      (tail := (f.run ops0).2.bytes.drop (p + (cs.flatMap (BufS.block Z)).length))
      ⟨b2, by omega, by omega, b5, b6, cs, hg, ?_, ?_⟩ hn
    · simp [BufS.avail, b3, hd]
    · rw [b1, hff]
      simpa [PFile.write] using splice_drop (f.run ops0).2.bytes p hcs

/-- With the two calls in the other order (position, then compression) the property fails: when the target lies in the
    buffer, SetPosition only moves inside of the buffer, and SetCompression then drops the buffer. The library never uses
    this order for reading. -/
theorem C20_order_matters :
    ∃ (f : PFile) (s : BufS), (BufS.init 8 f).run ⟨id, some⟩ [.read 1] = .ok ([.data [0]], s) ∧
      ((s.setPos ⟨id, some⟩ 2).setComp ⟨id, some⟩ true).f.pos ≠ 2 := by
  refine ⟨⟨[0, 0, 0, 0, 1, 7], 0⟩, _, rfl, by decide⟩

/-- a toy codec that really shortens some blocks -/
def toyZ : Zlib where
  compress bs := if bs = [7, 7, 7, 7] then [9] else 0 :: bs
  uncompress bs := if bs = [9] then some [7, 7, 7, 7] else some bs.tail

-- three blocks of the file, the second one compressed
example : ((((BufS.init 4 ⟨[], 0⟩).setPos toyZ 2).setComp toyZ true).run toyZ
    ([WOp.write [1, 2, 3, 4, 7, 7, 7], .write [7, 5], .getPos].map WOp.toSOp)) =
    .ok ([.none, .none, .pos 17],
      { f := ⟨[0, 0, 0, 0, 4, 1, 2, 3, 4, 1, 0, 1, 9, 0, 0, 1, 5], 17⟩, buf := [5, 7, 7, 7], nl := 0, nr := 0, nw := 0, comp := true }) := by decide

example : (((BufS.init 4 ⟨[0, 0, 0, 0, 4, 1, 2, 3, 4, 1, 0, 1, 9, 0, 0, 1, 5], 0⟩).setPos toyZ 2).setComp toyZ true).run toyZ
    ([3, 3, 3].map SOp.read) = .ok ([.data [1, 2, 3], .data [4, 7, 7], .data [7, 7, 5]],
      { f := ⟨[0, 0, 0, 0, 4, 1, 2, 3, 4, 1, 0, 1, 9, 0, 0, 1, 5], 17⟩, buf := [5, 7, 7, 7], nl := 1, nr := 1, nw := 0, comp := true }) := by
  decide

example : toyZ.Good 4 := by
  intro x _
  by_cases h : x = [7, 7, 7, 7] <;> simp [toyZ, h]

-- the reader looked at the beginning of the file before
example : (((BufS.init 4 ⟨[0, 0, 0, 0, 4, 1, 2, 3, 4, 1, 0, 1, 9, 0, 0, 1, 5], 0⟩).run toyZ [.read 3, .seek 1, .getPos]).bind
    fun r => ((r.2.setComp toyZ true).setPos toyZ 2).run toyZ ([3, 3, 3].map SOp.read)).bind (fun r => .ok r.1) =
    .ok [.data [1, 2, 3], .data [4, 7, 7], .data [7, 7, 5]] := by decide
example : ReadOnly [.read 3, .seek 1, .getPos] := by
  intro o ho bs
  rcases List.mem_cons.mp ho with rfl | ho
  · simp
  · rcases List.mem_cons.mp ho with rfl | ho
    · simp
    · simp_all

#print axioms C20_roundtrip
#print axioms C20_order_matters

end Gdx.Props
