import Verif.Proofs.WriteInv
import Verif.Proofs.Prim
import Verif.Proofs.PFile
import Verif.Model.FileFmt

/-!
What gdxClose writes for each table is what gdxOpenRead reads: round trips of the parts of the file.
-/

namespace Gdx

/-- reading these bytes gives this value, whatever follows -/
def Reads {α : Type} (rd : Rd α) (bs : List UInt8) (a : α) : Prop := ∀ r, rd (bs ++ r) = some (a, r)

theorem Reads.bind {α β : Type} {rd : Rd α} {bs : List UInt8} {a : α} (h : Reads rd bs a) {r : List UInt8}
    {k : α × List UInt8 → Option β} : (rd (bs ++ r) >>= k) = k (a, r) := by
  rw [h r]
  rfl

theorem Reads.int {x : Int} (h : I32 x) : Reads rdInt (wrInt x) x := fun r => rdInt_wrInt x h r
theorem Reads.int64 {x : Int} (h : I64 x) : Reads rdInt64 (wrInt64 x) x := fun r => rdInt64_wrInt64 x h r
theorem Reads.byte (b : UInt8) : Reads rdByte [b] b := fun _ => rfl
theorem Reads.str {s : Str} (h : s.length ≤ 255) : Reads rdString (encStr s) s := fun r => rdString_encStr s h r

theorem takeWhile_zfree {s : Str} (h : ZFree s) : s.takeWhile (· ≠ 0) = s := by
  induction s with
  | nil => rfl
  | cons c s ih =>
    rw [List.takeWhile_cons, if_pos (by simpa using h c (by simp)), ih (fun d hd => h d (by simp [hd]))]

theorem Reads.cstr {s : Str} (h : s.length ≤ 255) (hz : ZFree s) : Reads rdCStr (encStr s) s := by
  intro r
  unfold rdCStr
  rw [Reads.str h r]
  show some (s.takeWhile (· ≠ 0), r) = _
  rw [takeWhile_zfree hz]

theorem rdStrE_encStr {s : Str} (h : s.length ≤ 255) (r : List UInt8) : rdStrE (encStr s ++ r) = (s, r) := by
  have h1 : (UInt8.ofNat s.length).toNat = s.length := by simp; omega
  show (_, _) = _
  rw [h1]
  simp

theorem wrString_ok {s : Str} {b : List UInt8} (h : wrString s = .ok b) : b = encStr s ∧ s.length ≤ 255 := by
  unfold wrString at h
  split at h
  · rename_i hl
    cases h
    exact ⟨rfl, hl⟩
  · cases h

/-- items written one after the other -/
theorem Reads.many {α β : Type} {rd : Rd β} {f : α → Res (List UInt8)} {val : α → β} :
    ∀ {l : List α} {bs : List UInt8}, saveAll f l = .ok bs → (∀ a ∈ l, ∀ b, f a = .ok b → Reads rd b (val a)) →
      Reads (rdMany rd l.length) bs (l.map val)
  | [], bs, h, _ => by
    cases h
    intro r
    rfl
  | a :: l, bs, h, hr => by
    unfold saveAll at h
    obtain ⟨x, hx, h⟩ := Res.bind_eq_ok.mp h
    obtain ⟨y, hy, h⟩ := Res.bind_eq_ok.mp h
    cases h
    intro r
    show rdMany rd (l.length + 1) ((x ++ y) ++ r) = _
    unfold rdMany
    rw [List.append_assoc, hr a (by simp) x hx]
    simp only [Option.bind_eq_bind, Option.bind_some]
    rw [Reads.many hy (fun a' h' => hr a' (by simp [h'])) r]
    rfl

theorem saveAll_each {α : Type} {f : α → Res (List UInt8)} : ∀ {l : List α} {bs : List UInt8}, saveAll f l = .ok bs →
    ∀ a ∈ l, ∃ b, f a = .ok b
  | [], _, _, a, ha => by cases ha
  | x :: l, bs, h, a, ha => by
    unfold saveAll at h
    obtain ⟨b, hb, h⟩ := Res.bind_eq_ok.mp h
    obtain ⟨y, hy, h⟩ := Res.bind_eq_ok.mp h
    rcases List.mem_cons.mp ha with rfl | ha
    · exact ⟨b, hb⟩
    · exact saveAll_each hy a ha

theorem Reads.ints : ∀ {l : List Int}, (∀ x ∈ l, I32 x) → Reads (rdMany rdInt l.length) (l.flatMap wrInt) l
  | [], _ => fun _ => rfl
  | a :: l, h => by
    intro r
    show rdMany rdInt (l.length + 1) _ = _
    unfold rdMany
    rw [List.flatMap_cons, List.append_assoc, Reads.int (h a (by simp))]
    simp only [Option.bind_eq_bind, Option.bind_some]
    rw [Reads.ints (fun x hx => h x (by simp [hx])) r]
    rfl

theorem Reads.ok {α : Type} {rd : Rd α} {bs : List UInt8} {a : α} (h : Reads rd bs a) (r : List UInt8) :
    rdOk rd (bs ++ r) = .ok (a, r) := by
  unfold rdOk
  rw [h r]
  rfl

/-! ### one symbol -/

/-- numbers of a symbol that fit into their fields -/
structure SymFits (s : Sym) : Prop where
  pos : I64 s.pos
  dim : 0 ≤ s.dim ∧ s.dim ≤ 20
  typ : s.typ ≤ 4
  ui : I32 s.userInfo
  cnt : I32 s.dataCount
  err : I32 s.errors
  com : (s.comments.length : Int) ≤ 2147483647
  comz : ∀ t, some t ∈ s.comments → ZFree t
  name : ZFree s.name
  expl : ZFree s.expl
  dsy : ∀ l, s.domSyms = some l → l.length = s.dim.toNat ∧ ∀ d ∈ l, I32 d

/-- a symbol as it is in the symbol table of the file -/
def Sym.stored (s : Sym) : Sym := { s with bitmap := none, domStrs := none }

theorem Reads.domSyms {s : Sym} (h : SymFits s) : Reads (rdDomSyms s.dim) (wrDomSyms s.domSyms) s.domSyms := by
  intro r
  unfold rdDomSyms
  cases hd : s.domSyms with
  | none => rfl
  | some l =>
    have h1 := h.dsy l hd
    show (rdByte (1 :: (l.flatMap wrInt ++ r))) >>= _ = _
    simp only [rdByte_cons, Option.bind_eq_bind, Option.bind_some]
    rw [if_neg (by decide), if_neg (by have := h.dim; omega), ← h1.1, Reads.ints h1.2 r]
    rfl

theorem Reads.comments {l : List (Option Str)} {bs : List UInt8} (h : wrComments l = .ok bs)
    (hl : (l.length : Int) ≤ 2147483647) (hz : ∀ t, some t ∈ l → ZFree t) : Reads rdComments bs l := by
  unfold wrComments at h
  obtain ⟨b, hb, h⟩ := Res.bind_eq_ok.mp h
  cases h
  intro r
  unfold rdComments
  rw [List.append_assoc, Reads.int ⟨by omega, hl⟩]
  simp only [Option.bind_eq_bind, Option.bind_some]
  have hm := Reads.many (rd := rdCStr) (val := fun c : Option Str => c.getD []) hb (by
    intro c hc b hb
    obtain ⟨s, hs, hb⟩ := Res.bind_eq_ok.mp hb
    have := need_ok hs
    subst this
    obtain ⟨rfl, h2⟩ := wrString_ok hb
    exact Reads.cstr h2 (hz s hc)) r
  rw [show ((l.length : Int)).toNat = l.length by omega, hm]
  show some (_, r) = _
  have : (l.map fun c => c.getD []).map some = l := by
    rw [List.map_map]
    conv_rhs => rw [← List.map_id l]
    apply List.map_congr_left
    intro c hc
    obtain ⟨b', hb'⟩ := saveAll_each hb c hc
    obtain ⟨s, hs, _⟩ := Res.bind_eq_ok.mp hb'
    rw [need_ok hs]
    rfl
  rw [this]

theorem boolByte_ne (b : Bool) : decide (boolByte b ≠ 0) = b := by cases b <;> rfl

theorem Reads.sym {s : Sym} {bs : List UInt8} (h : wrSym s = .ok bs) (hf : SymFits s) : Reads (rdSym 7) bs s.stored := by
  unfold wrSym at h
  obtain ⟨n, hn, h⟩ := Res.bind_eq_ok.mp h
  obtain ⟨e, he, h⟩ := Res.bind_eq_ok.mp h
  obtain ⟨c, hc, h⟩ := Res.bind_eq_ok.mp h
  cases h
  obtain ⟨rfl, hn2⟩ := wrString_ok hn
  obtain ⟨rfl, he2⟩ := wrString_ok he
  intro r
  have hp : rdPos 7 = rdInt64 := rfl
  have hco : rdCo 7 = rdByte := rfl
  have hds : rdDs 7 s.dim = rdDomSyms s.dim := rfl
  have hcm : rdCm 7 = rdComments := rfl
  have hd : I32 s.dim := by have := hf.dim; constructor <;> omega
  have ht : (UInt8.ofNat s.typ).toNat = s.typ := by have := hf.typ; simp; omega
  unfold rdSym
  simp only [List.append_assoc, hp, hco, hcm]
  rw [(Reads.cstr hn2 hf.name).bind]; dsimp only
  rw [(Reads.int64 hf.pos).bind]; dsimp only
  rw [(Reads.int hd).bind]; dsimp only
  rw [(Reads.byte _).bind]; dsimp only
  rw [(Reads.int hf.ui).bind]; dsimp only
  rw [(Reads.int hf.cnt).bind]; dsimp only
  rw [(Reads.int hf.err).bind]; dsimp only
  rw [(Reads.byte _).bind]; dsimp only
  rw [(Reads.cstr he2 hf.expl).bind]; dsimp only
  rw [(Reads.byte _).bind]; dsimp only
  rw [hds, (Reads.domSyms hf).bind]; dsimp only
  rw [(Reads.comments hc hf.com hf.comz).bind]; dsimp only
  rw [ht, boolByte_ne, boolByte_ne]
  rfl

/-! ### lists of strings -/

theorem Reads.strs {l : List Str} {bs : List UInt8} (h : wrStrs l = .ok bs) (hl : (l.length : Int) ≤ 2147483647)
    (hz : ∀ s ∈ l, ZFree s) (r : List UInt8) : ∃ b, bs = wrInt l.length ++ b ∧
      rdOk rdInt (bs ++ r) = .ok ((l.length : Int), b ++ r) ∧ rdOk (rdMany rdCStr l.length) (b ++ r) = .ok (l, r) := by
  unfold wrStrs at h
  obtain ⟨b, hb, h⟩ := Res.bind_eq_ok.mp h
  cases h
  refine ⟨b, rfl, ?_, ?_⟩
  · rw [List.append_assoc]
    exact (Reads.int ⟨by omega, hl⟩).ok _
  · have := Reads.many (rd := rdCStr) (val := fun s : Str => s) hb (by
      intro s hs b hb
      obtain ⟨rfl, h2⟩ := wrString_ok hb
      exact Reads.cstr h2 (hz s hs))
    rw [List.map_id'] at this
    exact this.ok r

/-! ### texts -/

theorem addTexts_distinct (cnt : Nat) : ∀ (ss : List Str) (n : Nat) (l : List (Str × Int)) (m : Option (List Int)),
    l.length = n → Distinct true (l.map Prod.fst ++ ss) → addTexts cnt n ss l m = .ok (l ++ ss.map (·, 0), m)
  | [], n, l, m, _, _ => by simp [addTexts]
  | s :: ss, n, l, m, hn, hd => by
    have h0 : lookup true s (l.map Prod.fst) = none := by
      rw [lookup_none]
      intro x hx
      exact (List.pairwise_append.mp hd).2.2 x hx s (by simp)
    unfold addTexts
    simp only [h0]
    rw [if_pos hn, addTexts_distinct cnt ss (n + 1) _ m (by simp [hn]) (by simpa using hd)]
    simp

/-! ### acronyms -/

/-- an acronym after it has been read -/
def Acr.reopened (a : Acr) : Acr := { name := a.saveName, text := a.text, map := a.map }

theorem Reads.acr {a : Acr} {bs : List UInt8} (h : a.save = .ok bs) (hm : I32 a.map) : Reads rdAcr bs a.reopened := by
  unfold Acr.save at h
  obtain ⟨n, hn, h⟩ := Res.bind_eq_ok.mp h
  obtain ⟨t, ht, h⟩ := Res.bind_eq_ok.mp h
  cases h
  obtain ⟨rfl, hn2⟩ := wrString_ok hn
  obtain ⟨rfl, ht2⟩ := wrString_ok ht
  intro r
  unfold rdAcr
  rw [List.append_assoc, List.append_assoc, (Reads.str hn2).bind]; dsimp only
  rw [(Reads.str ht2).bind]; dsimp only
  rw [(Reads.int hm).bind]
  rfl

theorem Reads.acros {l : List Acr} {bs : List UInt8} (h : acrSave l = .ok bs) (hl : (l.length : Int) ≤ 2147483647)
    (hm : ∀ a ∈ l, I32 a.map) : Reads rdAcros bs (l.map Acr.reopened) := by
  unfold acrSave at h
  obtain ⟨b, hb, h⟩ := Res.bind_eq_ok.mp h
  cases h
  intro r
  unfold rdAcros
  rw [List.append_assoc, (Reads.int ⟨by omega, hl⟩).bind]
  exact Reads.many hb (fun a ha b hb => Reads.acr hb (hm a ha)) r

/-! ### relaxed domains -/

/-- a symbol after the file has been opened -/
def Sym.reopened (s : Sym) : Sym := { s with bitmap := none }

theorem rdRelaxed_wrRelaxed : ∀ (ss pre : List Sym) (fuel : Nat) (r : List UInt8),
    (wrRelaxed ((pre.length : Int) + 1) ss).length ≤ fuel → ((pre.length + ss.length : Nat) : Int) ≤ 2147483647 →
    (∀ s ∈ ss, 0 ≤ s.dim) → (∀ s ∈ ss, ∀ l, s.domStrs = some l → l.length = s.dim.toNat ∧ ∀ d ∈ l, I32 d) →
    rdRelaxed fuel (pre ++ ss.map Sym.stored) (wrRelaxed ((pre.length : Int) + 1) ss ++ r) = .ok (pre ++ ss.map Sym.reopened, r) := by
  intro ss
  induction ss with
  | nil =>
    intro pre fuel r hf _ _ _
    unfold wrRelaxed at hf ⊢
    cases fuel with
    | zero => simp at hf
    | succ fuel =>
      unfold rdRelaxed
      rw [(Reads.int (by decide)).ok]
      simp
  | cons s ss ih =>
    intro pre fuel r hf hn hp hd
    unfold wrRelaxed at hf ⊢
    have hl : ((pre ++ [s.reopened]).length : Int) = (pre.length : Int) + 1 := by simp
    cases h : s.domStrs with
    | none =>
      have hs : s.stored = s.reopened := by unfold Sym.stored Sym.reopened; rw [h]
      have := ih (pre ++ [s.reopened]) fuel r (by
        rw [h] at hf
        rw [hl]
        simpa using hf) (by simp at hn ⊢; omega) (fun x hx => hp x (by simp [hx])) (fun x hx => hd x (by simp [hx]))
      rw [hl] at this
      simp only [List.nil_append, List.map_cons, hs]
      simpa using this
    | some l =>
      rw [h] at hf
      obtain ⟨h1, h2⟩ := hd s (by simp) l h
      simp only [List.append_assoc]
      cases fuel with
      | zero => simp at hf
      | succ fuel =>
        unfold rdRelaxed
        rw [(Reads.int (by constructor <;> simp at hn ⊢ <;> omega)).ok]
        simp only [Res.bind_ok]
        rw [if_neg (by omega)]
        have hat : at1 (pre ++ List.map Sym.stored (s :: ss)) ((pre.length : Int) + 1) = .ok s.stored :=
          at1_nat (by simp)
        rw [hat]
        simp only [Res.bind_ok]
        have hdim : s.stored.dim = s.dim := rfl
        rw [hdim, if_neg (by have := hp s (by simp); omega), ← h1, (Reads.ints h2).ok]
        simp only [Res.bind_ok]
        have hm : (pre ++ List.map Sym.stored (s :: ss)).modify (((pre.length : Int) + 1).toNat - 1)
            (fun s => { s with domStrs := some l }) = (pre ++ [s.reopened]) ++ ss.map Sym.stored := by
          have e : ((pre.length : Int) + 1).toNat - 1 = pre.length := by omega
          rw [e, modify_eq_set_of (a := s.stored) (by simp)]
          have : ({ s.stored with domStrs := some l } : Sym) = s.reopened := by unfold Sym.stored Sym.reopened; rw [← h]
          rw [this]
          simp
        rw [hm]
        have := ih (pre ++ [s.reopened]) fuel r (by
          rw [hl]
          simp at hf ⊢
          omega) (by simp at hn ⊢; omega) (fun x hx => hp x (by simp [hx])) (fun x hx => hd x (by simp [hx]))
        rw [hl] at this
        rw [this]
        simp

end Gdx
