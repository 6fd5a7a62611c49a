import Verif.Proofs.MergeBig

/-! gdxmerge with the option for big symbols: the small symbols are written first, then the big ones, each right after it was collected. -/

namespace Gdx.Merge
open Gdx Gdx.Spec Gdx.Props

/-- symbol `i` (from 0) of the merged file is the row `r` with the text `t` -/
def RowInT (e : Env) (z : Cz) (L T : List Str) (g : Gx) (i : Nat) (r : Row) (t : Str) : Prop :=
  ∃ ps ys, ps.Perm (allRecs r.srcs) ∧ List.Forall₂ (Moved L T r.typ) ps ys ∧ Written e z r.name (r.dim + 1) r.typ r.sub i (ys.map (entryOf SVTab.default)) g ∧
    Explained g i (makeGoodExplText t)

theorem RowInT.more {e : Env} {z : Cz} (hz : z.Good) {L L' T T' : List Str} {g g' : Gx} {i : Nat} {r : Row} {t : Str} (h : RowInT e z L T g i r t) (ha : After e z g)
    {N : List Str} (hn : namesOf g' = some N) (hL : L <+: L') (hT : T <+: T') (hs : StaysIn e z g g') : RowInT e z L' T' g' i r t := by
  obtain ⟨ps, ys, h1, h2, h3, h4⟩ := h
  obtain ⟨l, hl, _⟩ := Option.map_eq_some_iff.mp (show g'.names.map (fun l => l.map Sym.name) = _ from hn)
  exact ⟨ps, ys, h1, h2.imp fun _ _ h => h.mono hL hT, h3.stays hs, h4.stays hz ha hs hl⟩

/-- the symbols `rs` with their texts are written -/
structure WInv (e : Env) (z : Cz) (rs : List (Row × Str)) (u : Uel) (T : List Str) (g : Gx) : Prop where
  out : Out e z (rs.map fun p => p.1.name) T g
  uel : g.uel = some u
  rows : ∀ (i : Nat) r t, rs[i]? = some (r, t) → RowInT e z u.strs T g i r t

theorem WInv.labels {e : Env} {z : Cz} (hz : z.Good) {rs : List (Row × Str)} {u u' : Uel} {T : List Str} {g : Gx} (h : WInv e z rs u T g) {q : Mode}
    (hl : u.strs <+: u'.strs) (hs : StaysIn e z g { g with uel := some u', modeAft := q }) : WInv e z rs u' T { g with uel := some u', modeAft := q } := by
  have ho : Out e z (rs.map fun p => p.1.name) T { g with uel := some u', modeAft := q } :=
    ⟨h.out.aft.more hs, h.out.mode, h.out.names, h.out.acr, h.out.texts, h.out.fst, h.out.sv⟩
  exact ⟨ho, rfl, fun i r t hr => (h.rows i r t hr).more hz h.out.aft ho.names hl (List.prefix_refl _) hs⟩

theorem firsts_len {d : Nat} : ∀ (rs : List (RecOut Str)) k, Firsts d k rs → ∀ r ∈ rs, r.key.length = d := by
  intro rs
  induction rs with
  | nil => intro _ _ r hr; cases hr
  | cons q rs ih =>
    intro k hk r hr
    rcases List.mem_cons.mp hr with rfl | hr
    · exact hk.1
    · exact ih _ hk.2.2 r hr

theorem firstText_zfree : ∀ {l : List Src}, (∀ s ∈ l, ZFree s.expl) → ZFree (firstText l)
  | [], _ => by simp [firstText, ZFree]
  | x :: l, h => by
    unfold firstText
    split
    · exact firstText_zfree fun s hs => h s (by simp [hs])
    · exact h x (by simp)

theorem forall₂_comp {α β γ : Type} {R : α → β → Prop} {S : β → γ → Prop} {W : α → γ → Prop} (h : ∀ a b c, R a b → S b c → W a c) :
    ∀ {l : List α} {m : List β} {n : List γ}, List.Forall₂ R l m → List.Forall₂ S m n → List.Forall₂ W l n
  | _, _, _, .nil, .nil => .nil
  | _, _, _, .cons h1 t1, .cons h2 t2 => .cons (h _ _ _ h1 h2) (forall₂_comp h t1 t2)

/-- a row can be written -/
theorem rowT_fits {o : Opt} {srt : List MRec → List MRec} (hs : Sorting srt) {z : Cz} {A X : List Str} {fs : List InFile} {srss : List (List Src)}
    (h : Inputs z A X fs srss) {u : Uel} (hu : Labels A u) {P : List Str} (hp : Texts X P) {n : Nat} {r : Row} (hr : (table o srss.flatten)[n]? = some r) {t : Str}
    (ht : ZFree t) {y : MSym} (hok : RowT u.strs P r t y) {N : List Str} (hN : ∀ s ∈ N, ¬ SameNoCase s r.name) {xss : List (List MRec)} (hd : y.data = some xss.flatten)
    (hx : List.Forall₂ (fun s xs => AllTaken u.strs P s.a r.typ s.id s.recs xs) r.srcs xss) : SymFits N P y (srt xss.flatten) := by
  obtain ⟨i, hrow⟩ := row_of hr
  obtain ⟨s, a1, a2, a3, a4, a5, a6⟩ := hrow.lead
  have hsm : s ∈ srss.flatten := List.mem_of_getElem? a1.get
  obtain ⟨o1, o2⟩ := h.ok s hsm
  have hsub := hrow.srcs_sub
  have hkeys : (xss.flatten.map Prod.fst).Nodup := by
    refine row_nodup hx (fun s hs => (h.ok s (hsub.subset hs)).2) ?_
    have hall := hrow.srcs_name
    refine List.Pairwise.imp_of_mem (fun {a b} ha hb hab => hab ?_) ((Inputs.apart h.inp h.names h.ids).sublist hsub)
    exact (hall a ha).1.symm.trans (hall b hb).1
  have hperm := hs.perm xss.flatten
  have hrecs := table_recs o srss.flatten _ (List.mem_of_getElem? hr)
  have hsz := hu.size
  have hnl := h.nlabels
  refine ⟨?_, ?_, ?_, ?_, ?_, ?_, ?_, ?_, ?_, ?_⟩
  · rw [hok.name, a2]
    exact o2.name
  · rw [hok.name]
    exact hN
  · rw [hok.name, a2]
    exact (ident_zfree ((C14_ident _).mpr o2.name)).1
  · rw [hok.expl]
    exact ht
  · rw [hok.dim, a3]
    have := a1.may.1
    omega
  · rw [hok.typ, a4]
    exact o2.typ
  · rw [hok.sub, a5]
    exact o2.sub
  · intro x hxm
    obtain ⟨s', s1, r', s2, s3⟩ := row_mem hx (hperm.mem_iff.mp hxm)
    obtain ⟨n1, n2, n3⟩ := hrow.srcs_name s' s1
    obtain ⟨p1, p2⟩ := h.ok s' (hsub.subset s1)
    obtain ⟨v1, v2⟩ := p1.recs r' s2
    have hlen : r'.key.length = s'.dim := firsts_len _ _ (p1.frst (by rw [n2, a3]; exact a1.may.1)) r' s2
    refine ⟨?_, ?_, ?_, ?_⟩
    · rw [s3.key.length_eq, List.length_cons, hlen, hok.dim, n2]
      omega
    · have hsz := typSize_eq p2.typ v1.1
      have htv := s3.vals
      unfold TakenVals at htv
      rw [hok.typ, ← n3]
      split at htv
      · obtain ⟨d, t, n, e1, _, e2, _⟩ := htv
        rw [← hsz, e1, e2]
        simp only [List.length_cons, List.length_nil]
      · rw [htv, hsz]
    · intro k hk
      obtain ⟨j, hj, he⟩ := List.mem_iff_getElem.mp hk
      have hj' : j < (s'.id :: r'.key).length := by rw [← s3.key.length_eq]; exact hj
      have hl := (List.forall₂_iff_get.mp s3.key).2 j hj hj'
      simp only [List.get_eq_getElem, he] at hl
      obtain ⟨l1, t, l2, _⟩ := hl
      have := (List.getElem?_eq_some_iff.mp l2).1
      simp only [Uel.strs, List.length_map] at this
      omega
    · intro ht
      have htv := s3.vals
      unfold TakenVals at htv
      rw [if_pos (by rw [← hok.typ]; exact ht)] at htv
      obtain ⟨d, t, n, _, _, e2, e3, e4, e5⟩ := htv
      exact ⟨n, t, e2, e3, e4, e5, h.texts t (hp.sub t (List.mem_of_getElem? e5))⟩
  · exact strict_of (hs.sorted _) ((hperm.map _).nodup_iff.mpr hkeys)
  · rw [hperm.length_eq, taken_len hx]
    have := h.nrecs
    unfold intMax
    omega

/-- a row is written -/
theorem writeRow_ok {o : Opt} {e : Env} {srt : List MRec → List MRec} (hs : Sorting srt) {z : Cz} (hz : z.Good) {A X : List Str} {fs : List InFile}
    {srss : List (List Src)} (h : Inputs z A X fs srss) {u : Uel} (hu : Labels A u) {s : MState} (hp : Texts X s.pool) {rs : List (Row × Str)} {T : List Str}
    (hw : WInv e z rs u T s.out) {n m : Nat} {r : Row} (hr : (table o srss.flatten)[m]? = some r) {t : Str} (ht : ZFree t ∧ t.length ≤ 255) {y : MSym}
    (hy : s.syms[n]? = some y) (hok : RowT u.strs s.pool r t y) (hN : ∀ q ∈ rs, ¬ SameNoCase q.1.name r.name) {p : Pass} (hpb : p = .small → y.size < o.cut) :
    ∃ g T', writeSym o z srt p s n = .ok { s with out := g, syms := s.syms.set n { y with data := none } } ∧ WInv e z (rs ++ [(r, t)]) u T' g := by
  obtain ⟨xss, hd, hx⟩ := hok.data
  have hf := rowT_fits hs h hu hp hr ht.1 hok (N := rs.map fun p => p.1.name) (by
    intro s hs
    obtain ⟨q, h1, rfl⟩ := List.mem_map.mp hs
    exact hN q h1) hd hx
  obtain ⟨g1, g2, g3, T1, ys, a1, a2, a3, a4, a5, a6, a7, a8, a9, a10⟩ := writeOne_ok hz hw.out hp.fst hf
  rw [List.length_map] at a8 a10
  refine ⟨g3, T1, ?_, ?_, a6.trans hw.uel, ?_⟩
  · unfold writeSym
    rw [hy]
    simp only [need, Res.bind_ok]
    rw [hd]
    dsimp only
    rw [if_neg (by
      rintro ⟨q1, q2⟩
      have := hpb q1
      unfold Opt.cut at this
      omega)]
    simp only [a1, Res.bind_ok, a2, a3, Res.pure_eq]
  · rw [List.map_append, List.map_singleton]
    rw [hok.name] at a4
    exact a4
  · intro i r' t' hi
    rcases Nat.lt_or_ge i rs.length with hlt | hge
    · rw [List.getElem?_append_left hlt] at hi
      exact (hw.rows i r' t' hi).more hz hw.out.aft a4.names (List.prefix_refl _) a5 a9
    · have : i = rs.length := by
        have := (List.getElem?_eq_some_iff.mp hi).1
        rw [List.length_append, List.length_singleton] at this
        omega
      subst this
      rw [List.getElem?_append_right (Nat.le_refl _)] at hi
      simp only [Nat.sub_self, List.getElem?_cons_zero, Option.some.injEq, Prod.mk.injEq] at hi
      obtain ⟨rfl, rfl⟩ := hi
      obtain ⟨ps, p1, p2⟩ := forall₂_perm (moved_all (T := T1) hx) (hs.perm xss.flatten)
      refine ⟨ps, ys, p1, ?_, ?_, ?_⟩
      · rw [hok.typ] at a7
        exact forall₂_comp (fun _ _ _ h1 h2 => h1 _ h2) p2 a7
      · rw [hok.name, hok.dim, hok.typ, hok.sub] at a8
        exact a8
      · rw [hok.expl, assignExpl_short ht.2] at a10
        exact a10

/-! ### the loops; `W`: the rows of the table, and whether they are small -/

def smalls (W : List (Row × Bool)) : List (Row × Str) := (W.filter Prod.snd).map fun p => (p.1, firstText p.1.srcs)
def bigs (W : List (Row × Bool)) : List (Row × Str) := (W.filter fun p => !p.2).map fun p => (p.1, [])

theorem smalls_take {W : List (Row × Bool)} {n : Nat} {r : Row} {b : Bool} (h : W[n]? = some (r, b)) :
    smalls (W.take (n + 1)) = smalls (W.take n) ++ if b then [(r, firstText r.srcs)] else [] := by
  unfold smalls
  rw [List.take_add_one, h, List.filter_append, List.map_append]
  cases b <;> rfl

theorem bigs_take {W : List (Row × Bool)} {n : Nat} {r : Row} {b : Bool} (h : W[n]? = some (r, b)) :
    bigs (W.take (n + 1)) = bigs (W.take n) ++ if b then [] else [(r, [])] := by
  unfold bigs
  rw [List.take_add_one, h, List.filter_append, List.map_append]
  cases b <;> rfl

theorem mem_smalls {W : List (Row × Bool)} {q : Row × Str} (h : q ∈ smalls W) : ∃ i : Nat, W[i]? = some (q.1, true) := by
  unfold smalls at h
  obtain ⟨p, hp, rfl⟩ := List.mem_map.mp h
  obtain ⟨h1, h2⟩ := List.mem_filter.mp hp
  obtain ⟨i, hi, he⟩ := List.mem_iff_getElem.mp h1
  refine ⟨i, ?_⟩
  rw [List.getElem?_eq_getElem hi, he]
  obtain ⟨a, b⟩ := p
  cases h2
  rfl

theorem mem_bigs {W : List (Row × Bool)} {q : Row × Str} (h : q ∈ bigs W) : ∃ i : Nat, W[i]? = some (q.1, false) := by
  unfold bigs at h
  obtain ⟨p, hp, rfl⟩ := List.mem_map.mp h
  obtain ⟨h1, h2⟩ := List.mem_filter.mp hp
  obtain ⟨i, hi, he⟩ := List.mem_iff_getElem.mp h1
  refine ⟨i, ?_⟩
  rw [List.getElem?_eq_getElem hi, he]
  obtain ⟨a, b⟩ := p
  cases b
  · rfl
  · cases h2

theorem take_get {α : Type} {W : List α} {n i : Nat} {a : α} (h : (W.take n)[i]? = some a) : i < n ∧ W[i]? = some a := by
  rw [List.getElem?_take] at h
  split at h
  · exact ⟨by assumption, h⟩
  · cases h

/-- the state in the first loop -/
structure Loop1 (o : Opt) (e : Env) (z : Cz) (W : List (Row × Bool)) (u : Uel) (P : List Str) (n : Nat) (s : MState) : Prop where
  pool : s.pool = P
  acro : s.nextAcro = 0
  len : s.syms.length = W.length
  small : ∀ (i : Nat) r, W[i]? = some (r, true) → ∃ y, s.syms[i]? = some y ∧ if i < n then y.data = none else y.size < o.cut ∧ RowT u.strs P r (firstText r.srcs) y
  big : ∀ (i : Nat) r, W[i]? = some (r, false) → ∃ y, s.syms[i]? = some y ∧ o.cut ≤ y.size ∧ Scanned r y
  win : ∃ T, WInv e z (smalls (W.take n)) u T s.out

theorem loop1_ok {o : Opt} {e : Env} {srt : List MRec → List MRec} (hs : Sorting srt) {z : Cz} (hz : z.Good) {A X : List Str} {fs : List InFile}
    {srss : List (List Src)} (h : Inputs z A X fs srss) {u : Uel} (hu : Labels A u) {P : List Str} (hp : Texts X P) {W : List (Row × Bool)}
    (hW : W.map Prod.fst = table o srss.flatten) : ∀ (k n : Nat) {s : MState}, n + k = W.length → Loop1 o e z W u P n s →
      ∃ s', writeSyms o z srt .small s (List.range' n k) = .ok s' ∧ Loop1 o e z W u P W.length s' ∧ s'.errs = s.errs := by
  intro k
  induction k with
  | zero =>
    intro n s hn hl
    rw [show n = W.length by omega] at hl
    exact ⟨s, rfl, hl, rfl⟩
  | succ k ih =>
    intro n s hn hl
    have hlt : n < W.length := by omega
    have hget : W[n]? = some W[n] := List.getElem?_eq_getElem hlt
    generalize W[n] = q at hget
    obtain ⟨r, b⟩ := q
    have hrow : ∀ {i : Nat} {r : Row} {b : Bool}, W[i]? = some (r, b) → (table o srss.flatten)[i]? = some r := by
      intro i r b h
      rw [← hW, List.getElem?_map, h]
      rfl
    obtain ⟨T, hw⟩ := hl.win
    rw [List.range'_succ]
    unfold writeSyms
    cases b with
    | false =>
      obtain ⟨y, y1, y2, y3⟩ := hl.big n r hget
      have he : writeSym o z srt .small s n = .ok s := by
        unfold writeSym
        rw [y1]
        simp only [need, Res.bind_ok]
        rw [y3.data]
        dsimp only
        rw [if_pos ⟨trivial, y2⟩]
        rfl
      rw [he]
      refine ih (n + 1) (by omega) ⟨hl.pool, hl.acro, hl.len, ?_, hl.big, T, by rw [smalls_take hget]; simpa using hw⟩
      intro i r' hi
      obtain ⟨y', z1, z2⟩ := hl.small i r' hi
      refine ⟨y', z1, ?_⟩
      have : i ≠ n := by
        rintro rfl
        rw [hget] at hi
        cases hi
      split at z2
      · rw [if_pos (by omega)]
        exact z2
      · rw [if_neg (by omega)]
        exact z2
    | true =>
      obtain ⟨y, y1, y2⟩ := hl.small n r hget
      rw [if_neg (by omega)] at y2
      have hsub := row_srcs (hrow hget)
      obtain ⟨g, T', a1, a2⟩ := writeRow_ok hs hz h hu (by rw [hl.pool]; exact hp) hw (hrow hget) (t := firstText r.srcs)
        ⟨firstText_zfree fun s hs => (h.ok s (hsub.subset hs)).2.expl.1, firstText_le fun s hs => (h.ok s (hsub.subset hs)).2.expl.2⟩ y1
        (by rw [hl.pool]; exact y2.2) (by
          intro q hq hn
          obtain ⟨i, hi⟩ := mem_smalls hq
          obtain ⟨i1, i2⟩ := take_get hi
          have := same_name_nat (hrow i2) (hrow hget) hn
          omega) (p := .small) (fun _ => y2.1)
      rw [a1]
      obtain ⟨s', b1, b2, b3⟩ := ih (n + 1) (s := { s with out := g, syms := s.syms.set n { y with data := none } }) (by omega)
        ⟨hl.pool, hl.acro, by rw [List.length_set]; exact hl.len, by
          intro i r' hi
          dsimp only
          obtain ⟨y', z1, z2⟩ := hl.small i r' hi
          by_cases hin : i = n
          · subst hin
            refine ⟨{ y with data := none }, ?_, by rw [if_pos (by omega)]⟩
            rw [List.getElem?_set_self (List.getElem?_eq_some_iff.mp y1).1]
          · refine ⟨y', by rw [List.getElem?_set_ne (by omega)]; exact z1, ?_⟩
            split at z2
            · rw [if_pos (by omega)]
              exact z2
            · rw [if_neg (by omega)]
              exact z2, by
          intro i r' hi
          dsimp only
          rw [List.getElem?_set_ne (by rintro rfl; rw [hget] at hi; cases hi)]
          exact hl.big i r' hi, T', by rw [smalls_take hget]; exact a2⟩
      exact ⟨s', b1, b2, b3⟩

/-- the state in the second loop -/
structure Loop2 (e : Env) (z : Cz) (A X : List Str) (W : List (Row × Bool)) (n : Nat) (s : MState) : Prop where
  pool : Texts X s.pool
  acro : s.nextAcro = 0
  len : s.syms.length = W.length
  small : ∀ (i : Nat) r, W[i]? = some (r, true) → ∃ y, s.syms[i]? = some y ∧ y.data = none
  big : ∀ (i : Nat) r, W[i]? = some (r, false) → n ≤ i → ∃ y, s.syms[i]? = some y ∧ Scanned r y
  win : ∃ u T, Labels A u ∧ WInv e z (smalls W ++ bigs (W.take n)) u T s.out

theorem ident_not_star {s : Str} (h : Ident s) : s ≠ star := by
  rintro rfl
  obtain ⟨_, ⟨c, hc, h1⟩, _⟩ := h
  cases hc
  revert h1
  decide

theorem loop2_ok {o : Opt} {e : Env} {srt : List MRec → List MRec} (hs : Sorting srt) {z : Cz} (hz : z.Good) {A X : List Str} (h0 : [] ∈ A) {fs : List InFile}
    {srss : List (List Src)} (h : Inputs z A X fs srss) (hl : Agree o srss.flatten) {W : List (Row × Bool)} (hW : W.map Prod.fst = table o srss.flatten)
    (hdim : ∀ r, (r, false) ∈ W → 1 ≤ r.dim ∧ r.dim ≤ 17) : ∀ (k n : Nat) {s : MState}, n + k = W.length → Loop2 e z A X W n s →
      ∃ s', bigSyms o z srt fs s (List.range' n k) = .ok s' ∧ Loop2 e z A X W W.length s' ∧ s'.errs = s.errs := by
  intro k
  induction k with
  | zero =>
    intro n s hn hq
    rw [show n = W.length by omega] at hq
    exact ⟨s, rfl, hq, rfl⟩
  | succ k ih =>
    intro n s hn hq
    have hlt : n < W.length := by omega
    have hget : W[n]? = some W[n] := List.getElem?_eq_getElem hlt
    generalize W[n] = q at hget
    obtain ⟨r, b⟩ := q
    have hrow : ∀ {i : Nat} {r : Row} {b : Bool}, W[i]? = some (r, b) → (table o srss.flatten)[i]? = some r := by
      intro i r b h
      rw [← hW, List.getElem?_map, h]
      rfl
    obtain ⟨u, T, hu, hw⟩ := hq.win
    rw [List.range'_succ]
    unfold bigSyms
    cases b with
    | true =>
      obtain ⟨y, y1, y2⟩ := hq.small n r hget
      have he : collectBig z fs s n = .ok (s, false) := by
        unfold collectBig
        rw [y1]
        simp only [need, Res.bind_ok]
        rw [if_pos (by rw [y2]; rfl)]
        rfl
      rw [he]
      simp only [Res.bind_ok, Bool.false_eq_true, if_false]
      exact ih (n + 1) (by omega) ⟨hq.pool, hq.acro, hq.len, hq.small, fun i r' hi hni => hq.big i r' hi (by omega), u, T, hu, by rw [bigs_take hget]; simpa using hw⟩
    | false =>
      obtain ⟨y, y1, y2⟩ := hq.big n r hget (Nat.le_refl _)
      have hr := hrow hget
      obtain ⟨i, hro⟩ := row_of hr
      obtain ⟨s0, a1, a2, a3, a4, a5, _⟩ := hro.lead
      have hs0 : s0 ∈ srss.flatten := List.mem_of_getElem? a1.get
      have hd := hdim r (List.mem_of_getElem? hget)
      have hnl := h.nlabels
      have hin : List.Forall₂ (fun f srs => Input z f srs ∧ (srs.Pairwise fun a b => ¬ SameNoCase a.name b.name) ∧ BigRow A X srs r) fs srss := by
        have hall : ∀ srs ∈ srss, (srs.Pairwise fun a b => ¬ SameNoCase a.name b.name) ∧ BigRow A X srs r := by
          intro srs hsrs
          refine ⟨h.names srs hsrs, ?_, hd, ?_, fun s hs => (h.ok s (List.mem_flatten.mpr ⟨srs, hsrs, hs⟩)).1⟩
          · rw [a2]
            exact ident_not_star (h.ok s0 hs0).2.name
          · intro s hs hn
            rw [a2] at hn
            rw [a3, a4]
            obtain ⟨b1, b2, _⟩ := hl.same s0 hs0 s (List.mem_flatten.mpr ⟨srs, hsrs, hs⟩) hn
            exact ⟨b1, b2⟩
        have hi := h.inp
        clear * - hi hall
        induction hi with
        | nil => exact .nil
        | cons h1 _ ih => exact .cons ⟨h1, hall _ (by simp)⟩ (ih fun s hs => hall s (by simp [hs]))
      obtain ⟨u', P', y', c1, c2, c3, c4, c5, c6⟩ := collectOne_ok e z h0 hw.out.mode (by omega) h.ntexts hin hu hw.uel hq.pool hq.acro y1 y2.name y2.dim y2.typ y2.sub
        y2.data hd
      rw [← hl.srcs hr, y2.expl] at c5
      have hlt' := (List.getElem?_eq_some_iff.mp y1).1
      obtain ⟨g, T', d1, d2⟩ := writeRow_ok hs hz h c2 (s := { s with out := { s.out with uel := some u', modeAft := .wInit }, pool := P', syms := s.syms.set n y' }) c3
        (hw.labels hz c4 c6) hr (t := []) ⟨by simp [ZFree], by simp⟩ (y := y') (n := n) (by dsimp only; rw [List.getElem?_set_self hlt']) c5 (by
          intro q hqm hn
          rcases List.mem_append.mp hqm with hqm | hqm
          · obtain ⟨i, hi⟩ := mem_smalls hqm
            have := same_name_nat (hrow hi) hr hn
            subst this
            rw [hget] at hi
            cases hi
          · obtain ⟨i, hi⟩ := mem_bigs hqm
            obtain ⟨i1, i2⟩ := take_get hi
            have := same_name_nat (hrow i2) hr hn
            omega) (p := .big) (by intro h; cases h)
      dsimp only at d1
      rw [List.set_set] at d1
      rw [c1]
      simp only [Res.bind_ok, if_true, d1]
      obtain ⟨s', b1, b2, b3⟩ := ih (n + 1) (s := { s with out := g, pool := P', syms := s.syms.set n { y' with data := none } }) (by omega)
        ⟨c3, hq.acro, by rw [List.length_set]; exact hq.len, by
          intro i r' hi
          dsimp only
          rw [List.getElem?_set_ne (by rintro rfl; rw [hget] at hi; cases hi)]
          exact hq.small i r' hi, by
          intro i r' hi hni
          dsimp only
          rw [List.getElem?_set_ne (by omega)]
          exact hq.big i r' hi (by omega), u', T', c2, by rw [bigs_take hget, if_neg (by simp), ← List.append_assoc]; exact d2⟩
      exact ⟨s', b1, b2, b3⟩

/-! ### the whole program -/

theorem mergeBig_ok {o : Opt} {e : Env} {z : Cz} (hz : z.Good) {srt : List MRec → List MRec} (hs : Sorting srt) {c : Int} (hbig : o.big = some c) (hcp : I32 o.compr)
    (hw : ∃ m r, openWriteEx e Gx.new false 0 producer o.compr = .ok (m, r)) {A X : List Str} (h0 : [] ∈ A) {fs : List InFile} {srss : List (List Src)}
    (h : Inputs z A X fs srss) (hl : Agree o srss.flatten)
    (hdim : ∀ s ∈ srss.flatten, (weight (named s.name srss.flatten) : Int) < c ∨ 1 ≤ s.dim ∧ s.dim ≤ 17) :
    ∃ s W u T n its ys, mergeTo o e z srt fs = .ok s ∧ s.out.mode = .wInit ∧ After e z s.out ∧ s.out.uel = some u ∧ textsOf s.out = some T ∧
      W.map Prod.fst = table o srss.flatten ∧ (∀ r, (r, false) ∈ W → c ≤ (weight r.srcs : Int)) ∧
      (∀ (i : Nat) r t, (smalls W ++ bigs W)[i]? = some (r, t) → RowInT e z u.strs T s.out i r t) ∧
      List.Forall₂ (NameRec u.strs T) fs its ∧ its.Perm ys ∧
      Written e z (setName n) 1 0 0 (smalls W ++ bigs W).length (ys.map (entryOf SVTab.default)) s.out ∧
      namesOf s.out = some ((smalls W ++ bigs W).map (fun p => p.1.name) ++ [setName n]) ∧ s.errs ≤ errsOf o srss.flatten ∧
      Explained s.out (smalls W ++ bigs W).length mergeSet := by
  obtain ⟨m0, r0, hw⟩ := hw
  have hopen : m0.mode = .wInit ∧ m0.names = some [] ∧ m0.uel = some Uel.empty ∧ m0.acros = some [] ∧ m0.texts = some [([], 0)] ∧ m0.sv = SVTab.default := by
    unfold openWriteEx at hw
    rw [if_neg (by simp [Gx.new]), if_neg (by simp), if_neg (by simp)] at hw
    obtain ⟨hd, _, hw⟩ := Res.bind_eq_ok.mp hw
    cases hw
    exact ⟨rfl, rfl, rfl, rfl, rfl, rfl⟩
  obtain ⟨w1, w2, w3, w4, w5, w6⟩ := hopen
  have haft : After e z { m0 with storeDom := false } := by
    refine ⟨[.openWrite false 0 producer o.compr, .storeDomainSets false], ?_, ?_, ?_⟩
    · intro c hc
      simp only [List.mem_cons, List.not_mem_nil, or_false] at hc
      rcases hc with rfl | rfl
      · exact ⟨by unfold I32; omega, by unfold producer ZFree; decide, hcp⟩
      · trivial
    · intro c hc
      simp only [List.mem_cons, List.not_mem_nil, or_false] at hc
      rcases hc with rfl | rfl <;> exact ⟨fun d m h => (by cases h), fun d p h => (by cases h)⟩
    · show (stateOf (openWriteEx e Gx.new false 0 producer o.compr)).bind _ = _
      rw [hw]
      rfl
  have hu0 : ({ m0 with storeDom := false } : Gx) = { m0 with storeDom := false, uel := some Uel.empty, modeAft := m0.modeAft } := by
    rw [← w3]
  have hOK : List.Forall₂ (fun f srs => Input z f srs ∧ ∀ s ∈ srs, SrcOk A X s) fs srss := by
    have : ∀ {fs : List InFile} {srss : List (List Src)}, List.Forall₂ (Input z) fs srss → (∀ s ∈ srss.flatten, SrcOk A X s) →
        List.Forall₂ (fun f srs => Input z f srs ∧ ∀ s ∈ srs, SrcOk A X s) fs srss := by
      intro fs srss h
      induction h with
      | nil => intro _; exact .nil
      | cons h _ ih =>
        intro hk
        exact .cons ⟨h, fun s hs => hk s (by simp [hs])⟩ (ih fun s hs => hk s (by rw [List.flatten_cons]; exact List.mem_append_right _ hs))
    exact this h.inp fun s hs => (h.ok s hs).1
  have hnl := h.nlabels
  have hcut : o.cut = c := by unfold Opt.cut; rw [hbig]; rfl
  -- the symbols are counted
  obtain ⟨st1, u1, q1, a1, a2, a3, a4, a5⟩ := (scan_inv (e := e) (z := z) (A := A) (X := X) hl h.nrecs).files (m := { m0 with storeDom := false }) w1 hOK (Labels.empty A)
    (st := { out := { m0 with storeDom := false } }) (pre := []) (q := m0.modeAft) hu0 ⟨.nil, rfl, rfl, rfl⟩ (by rw [List.nil_append])
  rw [List.nil_append] at a4
  -- the small ones are collected
  obtain ⟨st2, u2, q2, b1, b2, b3, b4, b5⟩ := (small_inv (e := e) (z := z) (A := A) (X := X) (by omega) h.ntexts hl a4.rows).files (m := { m0 with storeDom := false }) w1 hOK a3
    (st := st1) (pre := []) (q := q1) a2 ⟨by
      intro n r hr
      obtain ⟨y, hy, hsc⟩ := forall₂_get a4.rows hr
      refine ⟨y, y, hy, hy, rfl, fun _ => rfl, fun _ => ?_⟩
      exact ⟨hsc.name, hsc.dim, hsc.typ, hsc.sub, hsc.skip, hsc.expl, [], hsc.data, .nil⟩, a4.rows.length_eq.symm,
      by rw [a4.pool]; exact ⟨List.nodup_singleton _, by intro t ht; rw [List.mem_singleton.mp ht]; exact h.empty, rfl⟩, a4.acro, by rw [a4.errs]; exact Nat.zero_le _⟩
    (by rw [List.nil_append])
  rw [List.nil_append] at b4
  obtain ⟨W, hWd⟩ : ∃ W, W = (table o srss.flatten).zip (st1.syms.map fun y => decide (y.size < o.cut)) := ⟨_, rfl⟩
  have hWf : W.map Prod.fst = table o srss.flatten := by
    rw [hWd, List.map_fst_zip]
    rw [List.length_map, ← a4.rows.length_eq]
  have hWl : W.length = (table o srss.flatten).length := by rw [← hWf, List.length_map]
  have hWg : ∀ {i : Nat} {r : Row} {b : Bool}, W[i]? = some (r, b) → (table o srss.flatten)[i]? = some r ∧ ∃ y0, st1.syms[i]? = some y0 ∧ b = decide (y0.size < o.cut) := by
    intro i r b hi
    rw [hWd, List.getElem?_zip_eq_some, List.getElem?_map, Option.map_eq_some_iff] at hi
    obtain ⟨h1, y0, h2, h3⟩ := hi
    exact ⟨h1, y0, h2, h3.symm⟩
  have hWb : ∀ r, (r, false) ∈ W → c ≤ (weight r.srcs : Int) := by
    intro r hr
    obtain ⟨i, hi, he⟩ := List.mem_iff_getElem.mp hr
    obtain ⟨h1, y0, h2, h3⟩ := hWg (show W[i]? = some (r, false) by rw [List.getElem?_eq_getElem hi, he])
    obtain ⟨y, hy, hsc⟩ := forall₂_get a4.rows h1
    rw [h2] at hy
    cases hy
    have := hsc.size
    have h3 := of_decide_eq_false h3.symm
    omega
  have hWdim : ∀ r, (r, false) ∈ W → 1 ≤ r.dim ∧ r.dim ≤ 17 := by
    intro r hr
    have hwt := hWb r hr
    obtain ⟨i, hi, he⟩ := List.mem_iff_getElem.mp hr
    obtain ⟨h1, _⟩ := hWg (show W[i]? = some (r, false) by rw [List.getElem?_eq_getElem hi, he])
    obtain ⟨i', hro⟩ := row_of h1
    obtain ⟨s0, k1, k2, k3, _⟩ := hro.lead
    rcases hdim s0 (List.mem_of_getElem? k1.get) with hq | hq
    · rw [hl.srcs h1, k2] at hwt
      omega
    · rw [k3]
      exact hq
  -- and written
  have hout : Out e z [] [[]] st2.out := by
    refine ⟨(haft.more a5).more b5, by rw [b2]; exact w1, by rw [b2]; unfold namesOf; rw [w2]; rfl, ⟨[], by rw [b2]; exact w4, by simp⟩, by rw [b2]; unfold textsOf; rw [w5]; rfl, rfl,
      by rw [b2]; exact w6⟩
  have hlen2 : st2.syms.length = W.length := by rw [b4.len, hWl]
  obtain ⟨st3, c1, c2, c3⟩ := loop1_ok (o := o) (e := e) hs hz h b3 b4.pool hWf W.length 0 (s := st2) (by omega) ⟨rfl, b4.acro, hlen2, by
      intro i r hi
      obtain ⟨h1, y0, h2, h3⟩ := hWg hi
      obtain ⟨y0', y, k1, k2, k3⟩ := b4.rows i r h1
      rw [h2] at k1
      cases k1
      have h3 := of_decide_eq_true h3.symm
      refine ⟨y, k2, ?_⟩
      rw [if_neg (by omega)]
      have hk := k3.small h3
      rw [← hl.srcs h1] at hk
      exact ⟨by rw [k3.size]; exact h3, hk.name, hk.dim, hk.typ, hk.sub, hk.expl, hk.data⟩, by
      intro i r hi
      obtain ⟨h1, y0, h2, h3⟩ := hWg hi
      obtain ⟨y0', y, k1, k2, k3⟩ := b4.rows i r h1
      rw [h2] at k1
      cases k1
      have h3 := of_decide_eq_false h3.symm
      obtain ⟨y1, hy1, hsc⟩ := forall₂_get a4.rows h1
      rw [h2] at hy1
      cases hy1
      have := k3.big (by omega)
      subst this
      exact ⟨y, k2, by omega, hsc⟩, [[]], hout, by rw [b2], by intro i r t hi; cases hi⟩
  -- the big ones
  obtain ⟨T3, c4⟩ := c2.win
  rw [List.take_length] at c4
  obtain ⟨st4, d1, d2, d3⟩ := loop2_ok (o := o) (e := e) hs hz h0 h hl hWf hWdim W.length 0 (s := st3) (by omega) ⟨by rw [c2.pool]; exact b4.pool, c2.acro, c2.len, by
      intro i r hi
      obtain ⟨y, k1, k2⟩ := c2.small i r hi
      rw [if_pos (List.getElem?_eq_some_iff.mp hi).1] at k2
      exact ⟨y, k1, k2⟩, by
      intro i r hi _
      obtain ⟨y, k1, _, k2⟩ := c2.big i r hi
      exact ⟨y, k1, k2⟩, u2, T3, b3, by
      show WInv e z (smalls W ++ []) u2 T3 st3.out
      rw [List.append_nil]
      exact c4⟩
  obtain ⟨u4, T4, d4, d5⟩ := d2.win
  rw [List.take_length] at d5
  have htl : (smalls W ++ bigs W).length = W.length := by
    rw [List.length_append, smalls, bigs, List.length_map, List.length_map]
    clear * -
    induction W with
    | nil => rfl
    | cons a W ih =>
      obtain ⟨r, b⟩ := a
      cases b <;> simp <;> omega
  have htn : (table o srss.flatten).length ≤ srss.flatten.length := by
    obtain ⟨is, t1, t2, t3⟩ := table_rows o srss.flatten
    rw [← t3.length_eq]
    have hsub : is ⊆ List.range srss.flatten.length := by
      intro i hi
      obtain ⟨s, hs⟩ := (t2 i).mp hi
      rw [List.mem_range]
      exact (List.getElem?_eq_some_iff.mp hs.get).1
    have hnd : is.Nodup := t1.imp fun h => Nat.ne_of_lt h
    have := (hnd.subperm hsub).length_le
    simpa using this
  have hns := h.nsyms
  have hsz := d4.size
  obtain ⟨n, g', u', T', its, ys, e1, e2, e3, e4, e5, e6, e7, e8, e9, e10, e11, e12, e13, e14⟩ := writeNameList_ok hz d5.out d5.uel h.good h.ids
    (by rw [List.length_map, htl, hWl]; omega) (by omega)
  rw [List.length_map] at e12 e14
  refine ⟨{ st4 with out := g' }, W, u', T', n, its, ys, ?_, e3, e4, e6, e8, hWf, hWb, ?_, e10, e11, e12, e13, ?_, e14⟩
  · unfold mergeTo
    rw [hw]
    simp only [Res.bind_ok, hbig, a1, b1, List.range_eq_range', hlen2, c1, c2.len, d1, e1]
    rfl
  · intro i r t hi
    exact (d5.rows i r t hi).more hz d5.out.aft e13 e7 e9 e5
  · show st4.errs ≤ _
    rw [d3, c3]
    exact b4.errs

end Gdx.Merge
