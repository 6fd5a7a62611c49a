import Verif.Model.XList
import Mathlib.Data.List.Basic

/-!
C65: TXList behaves like a list.
-/

namespace Gdx.Props

open Gdx.XList

variable {α : Type}

/-- the object holds the list `l` -/
structure Lists (x : XList α) (l : List α) : Prop where
  count : x.count = l.length
  room : l.length ≤ x.mem.length
  cap : x.mem.length ≤ 2147483647
  mem : ∀ (n : Nat) a, l[n]? = some a → x.mem[n]? = some (some a)

theorem Lists.load {x : XList α} {l : List α} (h : Lists x l) {n : Nat} {a : α} (hn : l[n]? = some a) : x.load n = .ok a := by
  unfold XList.load
  rw [if_pos (by omega), Int.toNat_natCast, h.mem n a hn]

theorem Lists.setCapacity {x : XList α} {l : List α} (h : Lists x l) {n : Int} (hn : n ≤ 2147483647) (hl : (l.length : Int) ≤ n) :
    Lists (x.setCapacity n) l ∧ ((x.setCapacity n).mem.length : Int) = n := by
  have hc := h.count
  have hr := h.room
  unfold XList.setCapacity
  simp only
  rw [if_neg (by omega)]
  have hlen : (x.mem.take n.toNat ++ List.replicate (n.toNat - x.mem.length) (none : Option α)).length = n.toNat := by
    rw [List.length_append, List.length_take, List.length_replicate]
    omega
  refine ⟨⟨h.count, ?_, ?_, ?_⟩, ?_⟩
  · rw [hlen]; omega
  · rw [hlen]; omega
  · intro m a hm
    have hlt := (List.getElem?_eq_some_iff.mp hm).1
    have := h.mem m a hm
    have hlt' := (List.getElem?_eq_some_iff.mp this).1
    simp only
    rw [List.getElem?_append_left (by rw [List.length_take]; omega), List.getElem?_take_of_lt (by omega), this]
  · rw [hlen]; omega

theorem Lists.grow {x : XList α} {l : List α} (h : Lists x l) (hf : x.count = x.mem.length) (hl : l.length < 2147483647) :
    ∃ x', x.grow = .ok x' ∧ Lists x' l ∧ l.length < x'.mem.length ∧ x'.oneBased = x.oneBased := by
  have hc := h.count
  unfold XList.grow
  simp only
  generalize hd : (if (x.mem.length : Int) ≥ 1048576 then (x.mem.length : Int) / 4 else if (x.mem.length : Int) = 0 then 16 else 7 * (x.mem.length : Int)) = d
  have hd1 : d ≥ 1 := by
    rw [← hd]
    split
    · omega
    · split <;> omega
  by_cases h1 : (x.mem.length : Int) + d ≤ 2147483647
  · rw [if_pos h1]
    obtain ⟨h2, h3⟩ := h.setCapacity h1 (by omega)
    exact ⟨_, rfl, h2, by omega, rfl⟩
  · rw [if_neg h1, if_pos (by omega)]
    obtain ⟨h2, h3⟩ := h.setCapacity (n := 2147483647) (by omega) (by omega)
    exact ⟨_, rfl, h2, by omega, rfl⟩

theorem Lists.ready {x : XList α} {l : List α} (h : Lists x l) (hl : l.length < 2147483647) :
    ∃ x', (if x.count = x.mem.length then x.grow else .ok x) = .ok x' ∧ Lists x' l ∧ l.length < x'.mem.length ∧ x'.oneBased = x.oneBased := by
  split
  · exact h.grow (by assumption) hl
  · rename_i hne
    have := h.count
    have := h.room
    exact ⟨x, rfl, h, by omega, rfl⟩

/-- C65 Add -/
theorem C65_add {x : XList α} {l : List α} (h : Lists x l) (hl : l.length < 2147483647) (a : α) :
    ∃ x', x.add a = .ok (x', l.length + x.base) ∧ Lists x' (l ++ [a]) ∧ x'.oneBased = x.oneBased := by
  obtain ⟨y, y1, y2, y3, y4⟩ := h.ready hl
  have hc := h.count
  have hcy := y2.count
  unfold XList.add
  simp only
  rw [y1, Res.bind_ok]
  unfold XList.store
  rw [if_pos (by omega)]
  simp only [Res.bind_ok]
  have hby : base { y with mem := y.mem.set x.count.toNat (some a) } = x.base := by unfold base; rw [← y4]
  rw [hby]
  refine ⟨{ y with mem := y.mem.set x.count.toNat (some a), count := y.count + 1 }, by rw [hc]; rfl, ⟨?_, ?_, ?_, ?_⟩, y4⟩
  · simp only [List.length_append, List.length_singleton]; omega
  · simp only [List.length_append, List.length_singleton, List.length_set]; omega
  · simp only [List.length_set]; exact y2.cap
  · intro n b hn
    simp only
    by_cases hlt : n < l.length
    · rw [List.getElem?_append_left hlt] at hn
      rw [List.getElem?_set_ne (by omega)]
      exact y2.mem n b hn
    · have := (List.getElem?_eq_some_iff.mp hn).1
      rw [List.length_append, List.length_singleton] at this
      have : n = l.length := by omega
      subst this
      rw [List.getElem?_append_right (by omega), Nat.sub_self] at hn
      cases hn
      rw [hc, Int.toNat_natCast, List.getElem?_set_self (by omega)]

/-- C65 operator[] -/
theorem C65_get {x : XList α} {l : List α} (h : Lists x l) {n : Nat} {a : α} (hn : l[n]? = some a) : x.get (n + x.base) = .ok a := by
  unfold XList.get
  rw [show (n : Int) + x.base - x.base = n by omega]
  exact h.load hn

/-- C65 GetLast -/
theorem C65_last {x : XList α} {l : List α} (h : Lists x l) : x.getLast = .ok l.getLast? := by
  have hc := h.count
  unfold XList.getLast
  split
  · have : l.length = 0 := by omega
    rw [List.length_eq_zero_iff.mp this]
    rfl
  · obtain ⟨a, ha⟩ : ∃ a, l.getLast? = some a := by
      cases l with
      | nil => simp at hc; omega
      | cons b l => exact ⟨_, List.getLast?_eq_some_getLast (by simp)⟩
    rw [ha]
    rw [List.getLast?_eq_getElem?] at ha
    have := h.load ha
    rw [show x.count - 1 = ((l.length - 1 : Nat) : Int) by omega, this]
    rfl

/-- C65 Clear -/
theorem C65_clear (x : XList α) : Lists x.clear [] := by
  unfold XList.clear XList.setCapacity
  exact ⟨rfl, by simp, by simp, by simp⟩

/-- C65 a new list -/
theorem C65_empty (b : Bool) : Lists (XList.empty b : XList α) [] := ⟨rfl, by simp [XList.empty], by simp [XList.empty], by simp⟩

theorem indexFrom_ok [DecidableEq α] {x : XList α} {l : List α} (h : Lists x l) (a : α) : ∀ (f n : Nat), n ≤ l.length → l.length - n < f →
    x.indexFrom a f n = .ok (match (l.drop n).findIdx? (· == a) with | some k => (n : Int) + k + x.base | none => -1)
  | 0, n, _, hf => by omega
  | f + 1, n, hn, hf => by
    have hc := h.count
    unfold XList.indexFrom
    split
    · have hlt : n < l.length := by omega
      have hb := List.getElem?_eq_getElem hlt
      rw [h.load hb, Res.bind_ok, List.drop_eq_getElem_cons hlt, List.findIdx?_cons]
      by_cases he : l[n] = a
      · rw [if_pos he]
        simp [he]
      · rw [if_neg he, if_neg (by simpa using he)]
        have := indexFrom_ok h a f (n + 1) (by omega) (by omega)
        rw [show (n : Int) + 1 = ((n + 1 : Nat) : Int) by omega, this]
        cases (l.drop (n + 1)).findIdx? (· == a) with
        | none => rfl
        | some k => simp; omega
    · have : n = l.length := by omega
      subst this
      rw [List.drop_length]
      rfl

/-- C65 IndexOf: the first place, or -1 -/
theorem C65_index [DecidableEq α] {x : XList α} {l : List α} (h : Lists x l) (a : α) :
    x.indexOf a = .ok (match l.findIdx? (· == a) with | some k => (k : Int) + x.base | none => -1) := by
  have hc := h.count
  unfold XList.indexOf
  have := indexFrom_ok h a (x.count.toNat + 1) 0 (by omega) (by omega)
  rw [List.drop_zero] at this
  rw [show (0 : Int) = ((0 : Nat) : Int) from rfl, this]
  cases l.findIdx? (· == a) with
  | none => rfl
  | some k => simp

/-- taking out place `k` -/
theorem cut_ok {x : XList α} {l : List α} (h : Lists x l) {k : Nat} (hk : k < l.length) :
    ∃ x', (if (k : Int) < x.count - 1 then ({ x with count := x.count - 1 } : XList α).move k (k + 1) (x.count - 1 - k) else .ok { x with count := x.count - 1 }) = .ok x' ∧
      Lists x' (l.eraseIdx k) ∧ x'.oneBased = x.oneBased := by
  have hc := h.count
  have hr := h.room
  have hlen := List.length_eraseIdx_of_lt hk
  split
  · unfold XList.move
    rw [if_pos (by simp only; omega)]
    have hl2 : (x.mem.take ((k : Int)).toNat ++ ((x.mem.drop ((k : Int) + 1).toNat).take (x.count - 1 - k).toNat ++ x.mem.drop ((k : Int) + (x.count - 1 - k)).toNat)).length = x.mem.length := by
      simp only [List.length_append, List.length_take, List.length_drop]
      omega
    refine ⟨_, rfl, ⟨by simp only; omega, by simp only [hl2]; omega, by simp only [hl2]; exact h.cap, ?_⟩, rfl⟩
    intro n a hn
    have hnl := (List.getElem?_eq_some_iff.mp hn).1
    rw [List.getElem?_eraseIdx] at hn
    simp only
    by_cases hnk : n < k
    · rw [if_pos hnk] at hn
      rw [List.getElem?_append_left (by rw [List.length_take]; omega), List.getElem?_take_of_lt (by omega)]
      exact h.mem n a hn
    · rw [if_neg hnk] at hn
      have htl : (x.mem.take ((k : Int)).toNat).length = k := by rw [List.length_take]; omega
      rw [List.getElem?_append_right (by omega), htl, List.getElem?_append_left (by rw [List.length_take, List.length_drop]; omega),
        List.getElem?_take_of_lt (by omega), List.getElem?_drop, show ((k : Int) + 1).toNat + (n - k) = n + 1 by omega]
      exact h.mem (n + 1) a hn
  · have : k + 1 = l.length := by omega
    refine ⟨_, rfl, ⟨by simp only; omega, by simp only; omega, h.cap, ?_⟩, rfl⟩
    intro n a hn
    have hnl := (List.getElem?_eq_some_iff.mp hn).1
    rw [List.getElem?_eraseIdx, if_pos (by omega)] at hn
    exact h.mem n a hn

/-- C65 Delete, indices from 0 -/
theorem C65_delete {x : XList α} {l : List α} (h : Lists x l) (hb : x.oneBased = false) {k : Nat} (hk : k < l.length) :
    ∃ x', x.delete k = .ok x' ∧ Lists x' (l.eraseIdx k) ∧ x'.oneBased = false := by
  obtain ⟨x', h1, h2, h3⟩ := cut_ok h hk
  refine ⟨x', ?_, h2, h3.trans hb⟩
  unfold XList.delete
  have hb0 : base { x with count := x.count - 1 } = 0 := by unfold base; rw [show ({ x with count := x.count - 1 } : XList α).oneBased = false from hb]; rfl
  simp only [hb0, sub_zero]
  exact h1

/-- C65 Extract: the first place with the item is taken out -/
theorem C65_extract [DecidableEq α] {x : XList α} {l : List α} (h : Lists x l) (a : α) :
    ∃ x', x.extract a = .ok (x', if a ∈ l then some a else none) ∧ Lists x' (l.erase a) ∧ x'.oneBased = x.oneBased := by
  unfold XList.extract
  rw [C65_index h a, Res.bind_ok]
  have he := List.erase_eq_eraseIdx l a
  unfold List.idxOf? at he
  cases hf : l.findIdx? (· == a) with
  | none =>
    rw [hf] at he
    simp only at he ⊢
    rw [if_neg (by unfold base; split <;> omega)]
    have hno : a ∉ l := by
      intro hm
      have := List.findIdx?_eq_none_iff.mp hf a hm
      simp at this
    rw [if_neg hno, he]
    exact ⟨x, rfl, h, rfl⟩
  | some k =>
    rw [hf] at he
    simp only at he ⊢
    obtain ⟨hk, hka, _⟩ := List.findIdx?_eq_some_iff_getElem.mp hf
    have hm : a ∈ l := by
      have := List.getElem_mem hk
      rwa [show l[k] = a by simpa using hka] at this
    obtain ⟨x', h1, h2, h3⟩ := cut_ok h hk
    rw [show (k : Int) + x.base - x.base = k by omega, if_pos (by omega), h1, Res.bind_ok, if_pos hm, he]
    exact ⟨x', rfl, h2, h3⟩

/-- inserting at place `k` -/
theorem C65_insert {x : XList α} {l : List α} (h : Lists x l) (hl : l.length < 2147483647) {k : Nat} (hk : k ≤ l.length) (a : α) :
    ∃ x', x.insert (k + x.base) a = .ok x' ∧ Lists x' (l.insertIdx k a) ∧ x'.oneBased = x.oneBased := by
  obtain ⟨y, y1, y2, y3, y4⟩ := h.ready hl
  have hcy := y2.count
  have hby : y.base = x.base := by unfold base; rw [y4]
  have hlen : (l.insertIdx k a).length = l.length + 1 := List.length_insertIdx_of_le_length hk a
  unfold XList.insert
  rw [y1, Res.bind_ok]
  simp only
  rw [hby, show (k : Int) + x.base - x.base = k by omega]
  have key : ∃ z, (if (k : Int) < y.count then y.move (k + 1) k (y.count - k) else .ok y) = .ok z ∧ z.mem.length = y.mem.length ∧ z.count = y.count ∧ z.oneBased = y.oneBased ∧
      (∀ n b, n < k → l[n]? = some b → z.mem[n]? = some (some b)) ∧ ∀ n b, k ≤ n → l[n]? = some b → z.mem[n + 1]? = some (some b) := by
    split
    · unfold XList.move
      rw [if_pos (by omega)]
      have htl : (y.mem.take ((k : Int) + 1).toNat).length = k + 1 := by rw [List.length_take]; omega
      refine ⟨_, rfl, ?_, rfl, rfl, ?_, ?_⟩
      · simp only [List.length_append, List.length_take, List.length_drop]
        omega
      · intro n b hn hb
        simp only
        rw [List.getElem?_append_left (by omega), List.getElem?_take_of_lt (by omega)]
        exact y2.mem n b hb
      · intro n b hn hb
        have hnl := (List.getElem?_eq_some_iff.mp hb).1
        simp only
        rw [List.getElem?_append_right (by omega), htl, List.getElem?_append_left (by rw [List.length_take, List.length_drop]; omega),
          List.getElem?_take_of_lt (by omega), List.getElem?_drop, show ((k : Int)).toNat + (n + 1 - (k + 1)) = n by omega]
        exact y2.mem n b hb
    · refine ⟨y, rfl, rfl, rfl, rfl, fun n b _ hb => y2.mem n b hb, fun n b hn hb => ?_⟩
      have := (List.getElem?_eq_some_iff.mp hb).1
      omega
  obtain ⟨z, z1, z2, z3, z4, z5, z6⟩ := key
  rw [z1, Res.bind_ok]
  unfold XList.store
  rw [if_pos (by omega)]
  simp only [Res.bind_ok]
  refine ⟨_, rfl, ⟨by simp only; omega, by simp only [List.length_set]; omega, by simp only [List.length_set, z2]; exact y2.cap, ?_⟩, z4.trans y4⟩
  intro n b hn
  simp only
  rw [List.getElem?_insertIdx] at hn
  by_cases h1 : n < k
  · rw [if_pos h1] at hn
    rw [List.getElem?_set_ne (by omega)]
    exact z5 n b h1 hn
  · rw [if_neg h1] at hn
    by_cases h2 : n = k
    · subst h2
      rw [if_pos rfl, if_pos hk] at hn
      cases hn
      rw [Int.toNat_natCast, List.getElem?_set_self (by omega)]
    · rw [if_neg h2] at hn
      rw [List.getElem?_set_ne (by omega)]
      have := z6 (n - 1) b (by omega) hn
      rwa [show n - 1 + 1 = n by omega] at this

theorem lastFrom_ok [DecidableEq α] {x : XList α} {l : List α} (h : Lists x l) (a : α) : ∀ (f n : Nat), n ≤ l.length → n < f →
    ∃ r : Int, x.lastFrom a f ((n : Int) - 1) = .ok r ∧ -1 ≤ r ∧ r < n ∧ (∀ (k : Nat) b, r < (k : Int) → k < n → l[k]? = some b → b ≠ a) ∧ (0 ≤ r → l[r.toNat]? = some a)
  | 0, n, _, hf => by omega
  | f + 1, n, hn, hf => by
    unfold XList.lastFrom
    split
    · obtain ⟨b, hb⟩ : ∃ b, l[n - 1]? = some b := ⟨_, List.getElem?_eq_getElem (by omega)⟩
      rw [show (n : Int) - 1 = ((n - 1 : Nat) : Int) by omega, h.load hb, Res.bind_ok]
      by_cases he : b = a
      · rw [if_neg (by simp [he])]
        refine ⟨_, rfl, by omega, by omega, fun k c hk hk2 => by omega, fun _ => ?_⟩
        rw [Int.toNat_natCast, hb, he]
      · rw [if_pos he]
        obtain ⟨r, r1, r2, r3, r4, r5⟩ := lastFrom_ok h a f (n - 1) (by omega) (by omega)
        refine ⟨r, r1, r2, by omega, ?_, r5⟩
        intro k c hk hk2 hc
        by_cases hkn : k = n - 1
        · subst hkn
          rw [hb] at hc
          cases hc
          exact he
        · exact r4 k c hk (by omega) hc
    · have : n = 0 := by omega
      subst this
      exact ⟨-1, rfl, by omega, by omega, fun k b _ hk => by omega, fun hh => by omega⟩

/-- C65 Remove, indices from 0: the last place with the item is taken out, -1 if there is none -/
theorem C65_remove [DecidableEq α] {x : XList α} {l : List α} (h : Lists x l) (hb : x.oneBased = false) (a : α) :
    ∃ x' r, x.remove a = .ok (x', r) ∧ (if r = -1 then a ∉ l ∧ x' = x else ∃ k : Nat, r = k ∧ l[k]? = some a ∧ (∀ m, k < m → l[m]? ≠ some a) ∧
      Lists x' (l.eraseIdx k) ∧ x'.oneBased = false) := by
  have hc := h.count
  obtain ⟨r, r1, r2, r3, r4, r5⟩ := lastFrom_ok h a (x.count.toNat + 1) l.length (by omega) (by omega)
  unfold XList.remove
  rw [show x.count - 1 = (l.length : Int) - 1 by omega, r1, Res.bind_ok]
  simp only [base, hb, Bool.false_eq_true, if_false]
  have hno : ∀ m : Nat, r < m → l[m]? ≠ some a := by
    intro m hm hh
    exact r4 m a hm (List.getElem?_eq_some_iff.mp hh).1 hh rfl
  by_cases hr : r ≥ 0
  · rw [if_pos hr]
    obtain ⟨x', d1, d2, d3⟩ := C65_delete h hb (k := r.toNat) (by omega)
    rw [show ((r.toNat : Nat) : Int) = r by omega] at d1
    rw [d1]
    refine ⟨x', r, rfl, ?_⟩
    rw [if_neg (by omega)]
    exact ⟨r.toNat, by omega, r5 hr, fun m hm => hno m (by omega), d2, d3⟩
  · rw [if_neg hr]
    refine ⟨x, r, rfl, ?_⟩
    rw [if_pos (by omega)]
    refine ⟨?_, rfl⟩
    intro hm
    obtain ⟨k, hk⟩ := List.mem_iff_getElem?.mp hm
    exact hno k (by omega) hk

/-- calls to a list with indices from 0 -/
inductive XCall (α : Type) where
  | add (a : α)
  | insert (k : Nat) (a : α)
  | delete (k : Nat)
  | extract (a : α)
  | clear

/-- what the calls do to the object -/
def XCall.run [DecidableEq α] (x : XList α) : XCall α → Res (XList α)
  | .add a => do let (x, _) ← x.add a; pure x
  | .insert k a => x.insert k a
  | .delete k => x.delete k
  | .extract a => do let (x, _) ← x.extract a; pure x
  | .clear => .ok x.clear

/-- what they do to a list; `none` if the index is none of the list or the list is full -/
def XCall.spec [DecidableEq α] (l : List α) : XCall α → Option (List α)
  | .add a => if l.length < 2147483647 then some (l ++ [a]) else none
  | .insert k a => if l.length < 2147483647 ∧ k ≤ l.length then some (l.insertIdx k a) else none
  | .delete k => if k < l.length then some (l.eraseIdx k) else none
  | .extract a => some (l.erase a)
  | .clear => some []

/-- C65: after any calls with indices of the list, the object holds what the list holds. -/
theorem C65_history [DecidableEq α] : ∀ (cs : List (XCall α)) {x : XList α} {l l' : List α}, Lists x l → x.oneBased = false → cs.foldlM XCall.spec l = some l' →
    ∃ x', cs.foldlM XCall.run x = .ok x' ∧ Lists x' l' ∧ x'.oneBased = false
  | [], x, l, l', h, hb, hs => by
    cases hs
    exact ⟨x, rfl, h, hb⟩
  | c :: cs, x, l, l', h, hb, hs => by
    rw [List.foldlM_cons] at hs
    cases hm : c.spec l with
    | none => rw [hm] at hs; cases hs
    | some m =>
      rw [hm] at hs
      have hb0 : x.base = 0 := by unfold base; rw [hb]; rfl
      have key : ∃ y, c.run x = .ok y ∧ Lists y m ∧ y.oneBased = false := by
        cases c with
        | add a =>
          unfold XCall.spec at hm
          simp only at hm
          split at hm
          · rename_i hl
            cases hm
            obtain ⟨y, h1, h2, h3⟩ := C65_add h hl a
            refine ⟨y, ?_, h2, h3.trans hb⟩
            unfold XCall.run
            simp only
            rw [h1]
            rfl
          · cases hm
        | insert k a =>
          unfold XCall.spec at hm
          simp only at hm
          split at hm
          · rename_i hl
            cases hm
            obtain ⟨y, h1, h2, h3⟩ := C65_insert h hl.1 hl.2 a
            rw [hb0, add_zero] at h1
            exact ⟨y, h1, h2, h3.trans hb⟩
          · cases hm
        | delete k =>
          unfold XCall.spec at hm
          simp only at hm
          split at hm
          · rename_i hl
            cases hm
            exact C65_delete h hb hl
          · cases hm
        | extract a =>
          cases hm
          obtain ⟨y, h1, h2, h3⟩ := C65_extract h a
          refine ⟨y, ?_, h2, h3.trans hb⟩
          unfold XCall.run
          simp only
          rw [h1]
          rfl
        | clear =>
          cases hm
          exact ⟨_, rfl, C65_clear x, hb⟩
      obtain ⟨y, y1, y2, y3⟩ := key
      obtain ⟨x', h1, h2, h3⟩ := C65_history cs y2 y3 hs
      refine ⟨x', ?_, h2, h3⟩
      rw [List.foldlM_cons, y1]
      exact h1

/-- C65 is violated with indices from 1: deleting the last but one takes out the last one. -/
theorem C65_delete_one {x : XList α} {l : List α} (h : Lists x l) (_ : x.oneBased = true) (hl : 2 ≤ l.length) :
    ∃ x', x.delete ((l.length : Int) - 1) = .ok x' ∧ Lists x' l.dropLast := by
  have hc := h.count
  have hr := h.room
  unfold XList.delete
  simp only
  rw [if_neg (by omega)]
  refine ⟨_, rfl, ⟨by simp only [List.length_dropLast]; omega, by simp only [List.length_dropLast]; omega, h.cap, ?_⟩⟩
  intro n a hn
  have hnl := (List.getElem?_eq_some_iff.mp hn).1
  rw [List.length_dropLast] at hnl
  rw [List.getElem?_dropLast, if_pos hnl] at hn
  exact h.mem n a hn

/-- and Remove takes out another item, or none: an example list of three -/
theorem C65_remove_one : (do
      let (x, _) ← (XList.empty true : XList Nat).add 7
      let (x, _) ← x.add 8
      let (x, _) ← x.add 9
      let (y, r) ← x.remove 9
      let (w, q) ← x.remove 7
      pure (y.mem.take 2, y.count, r, w.count, q)) = .ok ([some 7, some 8], 2, 2, 3, 0) := by decide +kernel

example : [XCall.add 7, .add 8, .insert 1 9, .extract 7, .delete 1].foldlM XCall.spec ([] : List Nat) = some [9] := by decide +kernel

/-- a list that grows, indices from 0 -/
example : (do
      let (x, _) ← (XList.empty false : XList Nat).add 7
      let (x, n) ← x.add 8
      let x ← x.insert 1 9
      let (x, r) ← x.remove 7
      let k ← x.indexOf 8
      pure ([n, r, k, x.mem.length, x.count], x.mem.take 2)) = .ok ([1, 0, 1, 16, 2], [some 9, some 8]) := by decide +kernel

#print axioms C65_history
#print axioms C65_add
#print axioms C65_insert
#print axioms C65_delete
#print axioms C65_extract
#print axioms C65_remove
#print axioms C65_delete_one

end Gdx.Props
