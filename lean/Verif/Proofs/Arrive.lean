import Verif.Spec.Crash
import Verif.Props.Opening
import Verif.Props.Reopen
import Verif.Proofs.Kept
import Verif.Proofs.PFile

/-! Byte writes that arrive one by one; what the writes of a session leave alone. For C07, C08. -/

namespace Gdx.Props
open Gdx Gdx.Spec

/-! ### byte writes -/

theorem arrive_append (f : List UInt8) (a b : List (Nat × UInt8)) : arrive f (a ++ b) = arrive (arrive f a) b := by
  unfold arrive
  rw [List.foldl_append]

theorem stretch_append (p : Nat) : ∀ a b : List UInt8, stretch p (a ++ b) = stretch p a ++ stretch (p + a.length) b
  | [], b => by simp [stretch]
  | x :: a, b => by
    simp only [List.cons_append, stretch, List.length_cons]
    rw [stretch_append (p + 1) a b, show p + 1 + a.length = p + (a.length + 1) by omega]

theorem stretch_length (p : Nat) (a : List UInt8) : (stretch p a).length = a.length := by
  induction a generalizing p with
  | nil => rfl
  | cons x a ih => simp [stretch, ih]

theorem stretch_take (p : Nat) (a : List UInt8) (k : Nat) : (stretch p a).take k = stretch p (a.take k) := by
  induction a generalizing p k with
  | nil => simp [stretch]
  | cons x a ih =>
    cases k with
    | zero => rfl
    | succ k => simp [stretch, ih]

theorem stretch_ge (p : Nat) (a : List UInt8) : ∀ w ∈ stretch p a, p ≤ w.1 := by
  induction a generalizing p with
  | nil => exact fun _ h => nomatch h
  | cons x a ih =>
    intro w hw
    rcases List.mem_cons.mp hw with rfl | hw
    · exact Nat.le_refl _
    · have := ih (p + 1) w hw
      omega

theorem bytesOf_append (a b : List (Nat × List UInt8)) : bytesOf (a ++ b) = bytesOf a ++ bytesOf b := by
  unfold bytesOf
  rw [List.flatMap_append]

theorem bytesOf_one (p : Nat) (b : List UInt8) : bytesOf [(p, b)] = stretch p b := by simp [bytesOf]

theorem bytesOf_ge {n : Nat} {log : List (Nat × List UInt8)} (h : ∀ w ∈ log, n ≤ w.1) : ∀ w ∈ bytesOf log, n ≤ w.1 := by
  intro w hw
  obtain ⟨a, ha, hw⟩ := List.mem_flatMap.mp hw
  exact Nat.le_trans (h a ha) (stretch_ge _ _ _ hw)

theorem setByte_behind (H r : List UInt8) (p : Nat) (b : UInt8) (hp : H.length ≤ p) :
    setByte (H ++ r) p b = H ++ setByte r (p - H.length) b := by
  unfold setByte
  rw [List.append_assoc, List.set_append_right _ _ hp, List.length_append,
    show p + 1 - (H.length + r.length) = p - H.length + 1 - r.length by omega]

/-- writes behind the first bytes leave these alone -/
theorem arrive_behind (H : List UInt8) : ∀ (ws : List (Nat × UInt8)) (r : List UInt8), (∀ w ∈ ws, H.length ≤ w.1) →
    ∃ t, arrive (H ++ r) ws = H ++ t
  | [], r, _ => ⟨r, rfl⟩
  | w :: ws, r, h => by
    obtain ⟨t, ht⟩ := arrive_behind H ws (setByte r (w.1 - H.length) w.2) (fun v hv => h v (List.mem_cons_of_mem _ hv))
    refine ⟨t, ?_⟩
    rw [← ht, ← setByte_behind H r w.1 w.2 (h w List.mem_cons_self)]
    rfl

theorem setByte_end (f : List UInt8) (b : UInt8) : setByte f f.length b = f ++ [b] := by
  unfold setByte
  rw [show f.length + 1 - f.length = 1 by omega, List.set_append_right _ _ (Nat.le_refl _)]
  simp

/-- a stretch written at the end -/
theorem arrive_end (f : List UInt8) : ∀ a : List UInt8, arrive f (stretch f.length a) = f ++ a := by
  intro a
  induction a generalizing f with
  | nil => simp [stretch, arrive]
  | cons x a ih =>
    have := ih (f ++ [x])
    rw [List.length_append] at this
    show arrive (setByte f f.length x) (stretch (f.length + 1) a) = _
    rw [setByte_end, show f.length + 1 = f.length + [x].length from rfl, this, List.append_assoc]
    rfl

theorem setByte_splice (f : List UInt8) (p : Nat) (b : UInt8) : setByte f p b = splice f p [b] := by
  apply List.ext_getElem?
  intro i
  rw [splice_getElem?, if_neg (by simp)]
  unfold setByte
  rw [List.getElem?_set]
  simp only [List.length_append, List.length_replicate, List.length_cons, List.length_nil]
  by_cases hi : i < p
  · rw [if_neg (by omega), if_pos hi]
    by_cases hl : i < f.length
    · rw [if_pos hl, List.getElem?_append_left hl]
    · rw [if_neg hl, List.getElem?_append_right (by omega), List.getElem?_replicate, if_pos (by omega)]
  · rw [if_neg hi]
    by_cases he : p = i
    · subst he
      rw [if_pos rfl, if_pos (by omega), if_pos (by omega)]
      simp
    · rw [if_neg he, if_neg (by omega)]
      by_cases hl : i < f.length
      · rw [List.getElem?_append_left hl]
      · rw [List.getElem?_append_right (by omega), List.getElem?_replicate, if_neg (by omega), List.getElem?_eq_none (by omega)]

/-- a complete stretch is what the model calls a physical write -/
theorem arrive_splice (f : List UInt8) (p : Nat) (a : List UInt8) : arrive f (stretch p a) = splice f p a := by
  induction a generalizing f p with
  | nil => rw [splice_nil]; rfl
  | cons x a ih =>
    show arrive (setByte f p x) (stretch (p + 1) a) = _
    rw [setByte_splice, ih, show p + 1 = p + [x].length from rfl, splice_splice]
    rfl

theorem arrive_log (f : List UInt8) (log : List (Nat × List UInt8)) :
    arrive f (bytesOf log) = log.foldl (fun f w => splice f w.1 w.2) f := by
  induction log generalizing f with
  | nil => rfl
  | cons w log ih =>
    show arrive f (stretch w.1 w.2 ++ bytesOf log) = _
    rw [arrive_append, arrive_splice, ih]
    rfl

/-! ### the beginning of the file -/

theorem IsInt.inj {k : Nat} {b : Bytes} {x y : Int} (h : IsInt k b x) (h' : IsInt k b y) : x = y := h.2.trans h'.2.symm

theorem wrInt_isInt7 : IsInt 4 (wrInt 7) 7 := by
  constructor
  · decide
  · decide

/-- No file that continues the header by an index mark whose last byte is 0 (or that breaks off before) has a complete header. -/
theorem no_header {e : Env} {cl : Int} {p : Str} {h : List UInt8} (hh : fileHeader e cl p = .ok h) {f r t : List UInt8} {x y w : UInt8}
    (hf : f ++ r = h ++ ([x, y, w, 0] ++ t)) (v c : Int) (fs : Bytes) (ps : Places) : ¬ Header f v c fs ps := by
  rintro ⟨b4, l, ⟨cb, s, n, q, ⟨vb, ⟨hp, hp1, rfl⟩, hv⟩, hv7, hc, rfl, hfs, hq⟩, hb4, _⟩
  unfold fileHeader at hh
  obtain ⟨a, ha, hh⟩ := Res.bind_eq_ok.mp hh
  obtain ⟨b, hb, hh⟩ := Res.bind_eq_ok.mp hh
  cases hh
  obtain ⟨rfl, ha2⟩ := wrString_ok ha
  obtain ⟨rfl, hb2⟩ := wrString_ok hb
  rw [order_native] at hf
  simp only [List.append_assoc, List.cons_append] at hf
  have hf := List.append_cancel_left hf
  simp only [encStr, List.nil_append, List.cons_append, List.cons.injEq, true_and] at hf
  have hpl : hp.length = headerId.length := by
    have := congrArg List.length hp1
    rw [List.length_map, List.length_map] at this
    exact this
  obtain ⟨_, f1⟩ := List.append_inj hf.2 hpl
  obtain ⟨e1, f2⟩ := List.append_inj f1 (hv.1.trans (by decide))
  rw [e1] at hv
  obtain rfl := IsInt.inj hv wrInt_isInt7
  rw [if_neg (by decide)] at hc
  obtain ⟨_, f3⟩ := List.append_inj f2 (hc.1.trans (by simp))
  obtain ⟨e2, f4⟩ := List.cons.inj f3
  rw [e2] at hfs
  obtain ⟨_, f5⟩ := List.append_inj f4 (hfs.trans (by rw [UInt8.toNat_ofNat']; omega))
  obtain ⟨m, u, rfl, hu⟩ := hq
  obtain ⟨e3, f6⟩ := List.cons.inj f5
  rw [e3] at hu
  obtain ⟨_, f7⟩ := List.append_inj f6 (hu.trans (by rw [UInt8.toNat_ofNat']; omega))
  obtain ⟨e4, _⟩ := List.append_inj (s₂ := [x, y, w, 0]) (t₂ := t) f7 (hb4.1.trans rfl)
  rw [e4] at hb4
  have h2 := hb4.2
  have hx := x.toNat_lt
  have hy := y.toNat_lt
  have hw := w.toNat_lt
  simp only [leNat, UInt8.toNat_zero] at h2
  rw [if_pos (by omega)] at h2
  omega

/-- such a file is never opened -/
theorem no_open {e : Env} {cl : Int} {p : Str} {h : List UInt8} (hh : fileHeader e cl p = .ok h) {f r t : List UInt8} {x y w : UInt8}
    (hf : f ++ r = h ++ ([x, y, w, 0] ++ t)) (z : Cz) (g : Gx) (rm : Int) :
    (openReadXX z g (.content f) rm).All fun a => a.2.1 = false := by
  by_cases hm : g.mode = .notOpen
  · refine (C41_opening z g f rm hm).mono fun a ha => ?_
    by_cases hb : a.2.1 = true
    · rw [if_pos hb] at ha
      obtain ⟨⟨v, c, fs, ps, hd, _⟩, _⟩ := ha
      exact absurd hd (no_header hh hf v c fs ps)
    · simpa using hb
  · unfold openReadXX
    rw [if_pos hm]
    rfl

/-- the header is there, the index mark is not: the error of gdxOpenRead -/
theorem open_noIndex {e : Env} {cl : Int} {p : Str} {h : List UInt8} (hh : fileHeader e cl p = .ok h) (hc : cl = 0 ∨ cl = 1)
    {t : List UInt8} {x y w : UInt8} (z : Cz) (g : Gx) (hm : g.mode = .notOpen) (rm : Int) :
    ∃ g', openReadXX z g (.content (h ++ ([x, y, w, 0] ++ t))) rm = .ok (g', (false, -100031)) := by
  unfold fileHeader at hh
  obtain ⟨a, ha, hh⟩ := Res.bind_eq_ok.mp hh
  obtain ⟨b, hb, hh⟩ := Res.bind_eq_ok.mp hh
  cases hh
  obtain ⟨rfl, ha2⟩ := wrString_ok ha
  obtain ⟨rfl, hb2⟩ := wrString_ok hb
  obtain ⟨o, ho1, ho2, ho3, ho4, ho5⟩ := C21_header false false
    ([123] ++ (encStr headerId ++ (wrInt 7 ++ (wrInt cl ++ (encStr e.audit ++ (encStr p ++ ([x, y, w, 0] ++ t)))))))
  have ho : o = ⟨0, 0, 0⟩ := by
    cases o
    simp at ho3 ho4 ho5
    simp [ho3, ho4, ho5]
  subst ho
  have hcr : ∀ r, rdCompr 7 (wrInt cl ++ r) = .ok (cl, r) := fun r => by
    unfold rdCompr
    rw [if_neg (by decide)]
    exact (Reads.int (by rcases hc with rfl | rfl <;> decide)).ok r
  have hx := x.toNat_lt
  have hy := y.toNat_lt
  have hw := w.toNat_lt
  obtain ⟨n, hn, hn2⟩ : ∃ n, rdOk rdInt ([x, y, w, 0] ++ t) = .ok (n, t) ∧ n ≠ markBoi := by
    refine ⟨toI32 (decLE [x, y, w, 0]), rfl, ?_⟩
    simp only [decLE, UInt8.toNat_zero]
    unfold toI32 markBoi
    split <;> omega
  unfold openReadXX
  rw [if_neg (fun h => h hm)]
  simp only [List.append_assoc]
  rw [rdOk, ho1]
  simp only [need, Res.bind_ok]
  rw [if_neg (fun h => h ho2), if_neg (fun h => h rfl)]
  unfold openHeader
  rw [(Reads.byte _).ok]
  simp only [Res.bind_ok]
  rw [if_neg (by decide), rdStrE_encStr (by decide)]
  simp only
  rw [if_neg (by decide), (Reads.int (by decide)).ok]
  simp only [Res.bind_ok]
  rw [if_neg (by decide), hcr]
  simp only [Res.bind_ok]
  rw [rdStrE_encStr ha2]
  simp only
  rw [rdStrE_encStr hb2]
  simp only
  rw [hn]
  simp only [Res.bind_ok]
  rw [if_pos hn2]
  exact ⟨_, rfl⟩

/-! ### invariants of the calls between opening and closing -/

/-- an invariant of all steps is kept by every call that neither opens nor closes a file -/
theorem inFile_inv {P : Gx → Prop} (hp : ∀ a b, Prim .all a b → P a → P b)
    (hj : ∀ (g : Gx) u u', g.uel = some u → UelJump u u' → P g → P { g with uel := some u' })
    (ht : ∀ g : Gx, P g → P (getLastError g).1) (e : Env) (z : Cz) {g : Gx} {c : Call} (hc : c.WF) (hi : c.inFile = true) (ha : Aft g)
    (h : P g) : (step e z g c).All P := by
  have hp' : ∀ a b, Prim c.lic a b → P a → P b := fun a b h => hp a b (h.mono fun _ _ => trivial)
  by_cases hsp : c.special = false
  · exact (step_evo e z g c hc hsp ha).mono fun g' hg' => hg'.inv hp' h
  · cases c with
    | openWrite => cases hi
    | openRead => cases hi
    | openAppend => cases hi
    | close => cases hi
    | uelMap m s => exact stateOf_all (uelRegisterMap_inv hp' (fun g u u' h h' => hj g u u' h (Or.inl h')) m s h)
    | renameUEL o s => exact stateOf_all (renameUEL_inv (fun g u u' h h' => hj g u u' h (Or.inr h')) o s h)
    | getLastError => exact ht g h
    | _ => exact absurd rfl hsp

theorem inFile_aft (e : Env) (z : Cz) {g : Gx} {c : Call} (hc : c.WF) (hi : c.inFile = true) (ha : Aft g) : (step e z g c).All Aft :=
  inFile_inv prim_aft (fun _ _ _ _ _ h => h) (fun _ h => h) e z hc hi ha ha

theorem run_inFile {P : Gx → Prop} (hp : ∀ a b, Prim .all a b → P a → P b)
    (hj : ∀ (g : Gx) u u', g.uel = some u → UelJump u u' → P g → P { g with uel := some u' })
    (ht : ∀ g : Gx, P g → P (getLastError g).1) (e : Env) (z : Cz) : ∀ (ds : List Call) (g : Gx), (∀ c ∈ ds, c.WF) →
    (∀ c ∈ ds, c.inFile = true) → Aft g → P g → (run e z g ds).All fun g' => Aft g' ∧ P g'
  | [], g, _, _, ha, h => ⟨ha, h⟩
  | c :: ds, g, hc, hi, ha, h => by
    unfold run
    have hc1 := hc c List.mem_cons_self
    have hi1 := hi c List.mem_cons_self
    refine Res.All.bind ((inFile_aft e z hc1 hi1 ha).and (inFile_inv hp hj ht e z hc1 hi1 ha h)) ?_
    rintro g1 ⟨h1, h2⟩
    exact run_inFile hp hj ht e z ds g1 (fun c hc' => hc c (List.mem_cons_of_mem _ hc')) (fun c hc' => hi c (List.mem_cons_of_mem _ hc')) h1 h2

/-- all writes so far are behind the position `n`, apart from the first ones `l0`; the index is at `m` -/
structure Behind (l0 : List (Nat × List UInt8)) (f0 : List UInt8) (n m : Nat) (g : Gx) : Prop where
  log : ∃ rest, g.log = l0 ++ rest ∧ ∀ w ∈ rest, n ≤ w.1
  next : (n : Int) ≤ g.nextWrite
  major : g.majorPos = m
  file : g.file = arrive f0 (bytesOf g.log)

theorem arrive_put (f0 : List UInt8) (g : Gx) (h : g.file = arrive f0 (bytesOf g.log)) (p : Nat) (bs : List UInt8) :
    (g.put p bs).file = arrive f0 (bytesOf (g.put p bs).log) := by
  show splice g.file p bs = arrive f0 (bytesOf (g.log ++ [(p, bs)]))
  rw [bytesOf_append, arrive_append, bytesOf_one, arrive_splice, ← h]

theorem prim_behind {l0 : List (Nat × List UInt8)} {f0 : List UInt8} {n m : Nat} : ∀ a b, Prim .all a b → Behind l0 f0 n m a → Behind l0 f0 n m b := by
  intro a b h hb
  obtain ⟨⟨rest, hl, hr⟩, hn, hmj, hf⟩ := hb
  cases h with
  | ctrl h _ _ =>
    have h1 : b.log = a.log := congrArg Core.log h
    have h2 : b.nextWrite = a.nextWrite := congrArg Core.nextWrite h
    have h3 : b.majorPos = a.majorPos := congrArg Core.majorPos h
    have h4 : b.file = a.file := congrArg Core.file h
    exact ⟨⟨rest, by rw [h1, hl], hr⟩, by rw [h2]; exact hn, by rw [h3]; exact hmj, by rw [h4, h1]; exact hf⟩
  | write bs h =>
    refine ⟨⟨rest ++ [(a.nextWrite.toNat, bs)], ?_, ?_⟩, ?_, hmj, ?_⟩
    · show a.log ++ _ = _
      rw [hl, List.append_assoc]
    · intro w hw
      rcases List.mem_append.mp hw with hw | hw
      · exact hr w hw
      · rw [List.mem_singleton.mp hw]
        simp only
        omega
    · show (n : Int) ≤ a.nextWrite + bs.length
      omega
    · exact arrive_put f0 a hf _ bs
  | _ => exact ⟨⟨rest, hl, hr⟩, hn, hmj, hf⟩

theorem run_behind {l0 : List (Nat × List UInt8)} {f0 : List UInt8} {n m : Nat} (e : Env) (z : Cz) (ds : List Call) (g : Gx)
    (hc : ∀ c ∈ ds, c.WF) (hi : ∀ c ∈ ds, c.inFile = true) (ha : Aft g) (h : Behind l0 f0 n m g) :
    (run e z g ds).All fun g' => Aft g' ∧ Behind l0 f0 n m g' :=
  run_inFile prim_behind (fun _ _ _ _ _ ⟨a, b, c, d⟩ => ⟨a, b, c, d⟩) (fun _ ⟨a, b, c, d⟩ => ⟨a, b, c, d⟩) e z ds g hc hi ha h

/-! ### opening leaves the file alone -/

def _root_.Gdx.Gx.disk (g : Gx) : List UInt8 × List (Nat × List UInt8) := (g.file, g.log)

theorem openHeader_disk (g : Gx) (l : List UInt8) : (openHeader g l).All fun x => x.1.disk = g.disk := by
  unfold openHeader
  refine Res.All.bind' ?_
  rintro ⟨b, l⟩ _
  simp only
  split
  · rfl
  split
  · rfl
  refine Res.All.bind' ?_
  rintro ⟨v, l⟩ _
  simp only
  split
  · rfl
  refine Res.All.bind' ?_
  rintro ⟨c, l⟩ _
  simp only
  refine Res.All.bind' ?_
  rintro ⟨m, l⟩ _
  simp only
  split
  · rfl
  refine Res.All.bind' ?_
  rintro ⟨ix, l⟩ _
  rfl

theorem openSyms_disk (z : Cz) (ix : Index) (g : Gx) : (openSyms z ix g).All fun x => x.1.disk = g.disk := by
  unfold openSyms
  refine Res.All.bind' ?_
  intro l _
  simp only
  split
  · rfl
  refine Res.All.bind' ?_
  rintro ⟨n, l⟩ _
  simp only
  refine Res.All.bind' ?_
  rintro ⟨syms, l⟩ _
  simp only
  split <;> split <;> rfl

theorem openUels_disk (z : Cz) (ix : Index) (g : Gx) : (openUels z ix g).All fun x => x.1.disk = g.disk := by
  unfold openUels
  refine Res.All.bind' ?_
  intro l _
  simp only
  split
  · rfl
  refine Res.All.bind' ?_
  rintro ⟨n, l⟩ _
  simp only
  refine Res.All.bind' ?_
  rintro ⟨strs, l⟩ _
  simp only
  split <;> rfl

theorem openTexts_disk (z : Cz) (ix : Index) (g : Gx) : (openTexts z ix g).All fun x => x.1.disk = g.disk := by
  unfold openTexts
  refine Res.All.bind' ?_
  intro l _
  simp only
  split
  · rfl
  refine Res.All.bind' ?_
  rintro ⟨n, l⟩ _
  simp only
  refine Res.All.bind' ?_
  rintro ⟨strs, l⟩ _
  simp only
  refine Res.All.bind' ?_
  rintro ⟨t, mp⟩ _
  simp only
  split <;> rfl

theorem openAcros_disk (z : Cz) (ix : Index) (g : Gx) : (openAcros z ix g).All fun x => x.1.disk = g.disk := by
  unfold openAcros
  refine Res.All.bind' ?_
  intro l _
  simp only
  split
  · rfl
  refine Res.All.bind' ?_
  rintro ⟨a, l⟩ _
  simp only
  split <;> rfl

theorem openDoms_disk (z : Cz) (ix : Index) (g : Gx) : (openDoms z ix g).All fun x => x.1.disk = g.disk := by
  unfold openDoms
  refine Res.All.bind' ?_
  intro l _
  simp only
  split
  · rfl
  refine Res.All.bind' ?_
  rintro ⟨n, l⟩ _
  simp only
  refine Res.All.bind' ?_
  rintro ⟨strs, l⟩ _
  simp only
  split
  · rfl
  refine Res.All.bind' ?_
  intro syms _
  refine Res.All.bind' ?_
  rintro ⟨syms, l⟩ _
  simp only
  split <;> rfl

theorem openTables_disk (z : Cz) (ix : Index) (m : Int) (g : Gx) :
    (openTables z ix m g).All fun x => x.1.disk = g.disk := by
  unfold openTables
  refine thenOk_all (P := fun x => x.disk = g.disk) (openSyms_disk z ix g) fun g1 h1 => ?_
  refine thenOk_all (P := fun x => x.disk = g.disk) ((openUels_disk z ix g1).mono fun _ h => h.trans h1) fun g2 h2 => ?_
  refine thenOk_all (P := fun x => x.disk = g.disk) ?_ fun g3 h3 => ?_
  · split
    · exact (openTexts_disk z ix g2).mono fun _ h => h.trans h2
    · exact h2
  refine thenOk_all (P := fun x => x.disk = g.disk) ?_ fun g4 h4 => ?_
  · split
    · exact (openAcros_disk z ix g3).mono fun _ h => h.trans h3
    · exact h3
  simp only
  split
  · exact (openDoms_disk z ix _).mono fun _ h => h.trans h4
  · exact h4

theorem openReadXX_disk {z : Cz} {g g' : Gx} {f : List UInt8} {m n : Int} (h : openReadXX z g (.content f) m = .ok (g', (true, n))) :
    g'.disk = (f, []) := by
  have : (openReadXX z g (.content f) m).All fun x => x.2.1 = true → x.1.disk = (f, []) := by
    unfold openReadXX
    by_cases hm : g.mode = .notOpen
    swap
    · rw [if_pos hm]
      exact (fun h => nomatch h)
    rw [if_neg (not_not.mpr hm)]
    refine Res.All.bind' ?_
    rintro ⟨o, l⟩ _
    simp only
    refine (?_ : Res.All _ _)
    split
    · exact (fun h => nomatch h)
    split
    · trivial
    refine Res.All.bind (openHeader_disk _ l) ?_
    rintro ⟨g1, ix⟩ h1
    cases ix with
    | none => exact (fun h => nomatch h)
    | some ix =>
      refine Res.All.bind (openTables_disk z ix m g1) ?_
      rintro ⟨g2, ok⟩ h2
      simp only
      refine (?_ : Res.All _ _)
      split
      · exact (fun h => nomatch h)
      · exact fun _ => h2.trans h1
  rw [h] at this
  exact this rfl

theorem openAppend_disk {z : Cz} {g g' : Gx} {f : List UInt8} {p : Str} {n : Int} (h : openAppend z g (.content f) p = .ok (g', (true, n))) :
    g'.disk = (f, []) := by
  unfold openAppend at h
  obtain ⟨⟨g1, ⟨b, m⟩⟩, h1, h⟩ := Res.bind_eq_ok.mp h
  simp only at h
  split at h
  · rename_i hb
    cases h
    cases hb
  rename_i hb
  split at h
  · obtain ⟨_, _, h⟩ := Res.bind_eq_ok.mp h
    cases h
  cases h
  exact openReadXX_disk (g' := g1) h1

/-! ### what closing writes -/

theorem wrTables_fin {l0 : List (Nat × List UInt8)} {f0 : List UInt8} {n m : Nat} {z : Cz} {g g' : Gx} {r : Int} (h : Behind l0 f0 n m g)
    (hc : gdxClose z g = .ok (g', r)) : g'.file = arrive f0 (bytesOf g'.log) ∧ ∃ rest, (∀ w ∈ rest, n ≤ w.1) ∧
      (g'.log = l0 ++ rest ∨ ∃ p t, g'.log = l0 ++ rest ++ [(m, indexBytes p t)]) := by
  unfold gdxClose at hc
  obtain ⟨g1, h1, hc⟩ := Res.bind_eq_ok.mp hc
  obtain ⟨g2, h2, hc⟩ := Res.bind_eq_ok.mp hc
  cases hc
  have hb : Behind l0 f0 n m g1 := by
    have := finishWrite_evo .all z g
    rw [h1] at this
    exact this.inv prim_behind h
  have key : ∀ a, a = g2.freeAll → a.file = g2.file ∧ a.log = g2.log := by rintro _ rfl; exact ⟨rfl, rfl⟩
  rw [(key _ rfl).1, (key _ rfl).2]
  obtain ⟨rest, hl, hr⟩ := hb.log
  unfold saveIf at h2
  split at h2
  · unfold saveFile at h2
    split at h2
    · cases h2
    obtain ⟨t, _, h2⟩ := Res.bind_eq_ok.mp h2
    cases h2
    refine ⟨arrive_put _ _ (arrive_put _ _ hb.file _ _) _ _, rest ++ [(g1.nextWrite.toNat, t.all)], ?_, Or.inr ⟨g1.nextWrite, t, ?_⟩⟩
    · intro w hw
      rcases List.mem_append.mp hw with hw | hw
      · exact hr w hw
      · rw [List.mem_singleton.mp hw]
        have := hb.next
        simp only
        omega
    · show g1.log ++ _ ++ [(g1.majorPos, _)] = _
      rw [hl, hb.major]
      simp
  · cases h2
    exact ⟨hb.file, rest, hr, Or.inl hl⟩

end Gdx.Props
