import Verif.Model.MergeMain
import Verif.Proofs.Evo
import Verif.Props.DumpMain

/-! How many input files gdxmerge counts. -/

namespace Gdx.Props
open Gdx Gdx.Merge Gdx.Spec

theorem share_read (s : MState) (g : Gx) : (shareAcronyms s g).All fun x => x.1.read = s.read := by
  unfold shareAcronyms
  split
  · rfl
  · refine Res.All.bind (Q := fun x : MState => x.read = s.read) ?_ ?_
    · split
      · refine Res.All.bind' fun a _ => ?_
        refine Res.All.bind' fun b _ => ?_
        rfl
      · rfl
    · intro x hx
      dsimp only
      exact Res.All.bind' fun a _ => hx

theorem keep_read (s : MState) (g : Gx) : (keepAcronyms s g).All fun x => x.read = s.read := by
  unfold keepAcronyms
  dsimp only
  split
  · rfl
  · exact Res.All.bind' fun a _ => rfl

theorem collect_read (z : Cz) (id : Str) (s : MState) (g : Gx) (b : Bufs) (nr : Int) (n : Nat) (y : MSym) (typ : Nat) (last : Option Nat) :
    (Merge.collect z id s g b nr n y typ last).All fun x => x.1.read = s.read := by
  unfold Merge.collect
  refine Res.All.bind' fun a _ => ?_
  dsimp only
  refine Res.All.bind' fun a _ => ?_
  refine Res.All.bind' fun a _ => ?_
  rfl

theorem list_read (o : Merge.Opt) (s : MState) (g : Gx) (nr : Int) : (listSym o s g nr).All fun x => x.1.read = s.read := by
  unfold listSym
  dsimp only
  split
  · rfl
  · generalize (if (symbolInfo g nr).typ = dtAlias then { symbolInfo g nr with typ := dtSet } else symbolInfo g nr) = a
    generalize (if (symbolInfo g nr).typ = dtAlias then { symbolInfoX g nr with userInfo := 0 } else symbolInfoX g nr) = x
    cases symIdx s.syms a.name with
    | some n => rfl
    | none =>
      dsimp only
      by_cases h : o.takes a.name = false
      · rw [if_pos h]; rfl
      · rw [if_neg h]; exact Res.All.bind' fun _ _ => rfl

theorem addSym_read (o : Merge.Opt) (z : Cz) (p : Pass) (id : Str) (s : MState) (g : Gx) (b : Bufs) (nr : Int) :
    (addSym o z p id s g b nr).All fun x => x.1.read = s.read := by
  unfold addSym
  refine Res.All.bind (list_read o s g nr) ?_
  rintro ⟨s1, l⟩ h1
  dsimp only at h1 ⊢
  cases l with
  | none => exact h1
  | some l =>
    obtain ⟨n, a, x⟩ := l
    dsimp only
    refine Res.All.bind' fun y _ => ?_
    split
    · exact h1
    · split
      · exact h1
      · split
        · exact h1
        · split
          · exact h1
          · exact (collect_read ..).mono fun _ h => h.trans h1

theorem addSyms_read (o : Merge.Opt) (z : Cz) (p : Pass) (id : Str) : ∀ (ns : List Int) (s : MState) (g : Gx) (b : Bufs),
    (addSyms o z p id s g b ns).All fun x => x.1.read = s.read := by
  intro ns
  induction ns with
  | nil => intro s g b; rfl
  | cons n ns ih =>
    intro s g b
    refine Res.All.bind (addSym_read o z p id s g b n) ?_
    rintro ⟨s1, g1, b1⟩ h1
    exact (ih s1 g1 b1).mono fun _ h => h.trans h1

theorem addFile_read (o : Merge.Opt) (z : Cz) (p : Pass) (s : MState) (f : Merge.InFile) {g : Gx} {b : Bool} {err : Int}
    (ho : openReadXX z Gx.new f.disk 0 = .ok (g, (b, err))) : (addFile o z p s f).All fun x => x.read = if err ≠ 0 then s.read else s.read + 1 := by
  unfold addFile
  rw [ho, Res.bind_ok]
  dsimp only
  split
  · rfl
  · refine Res.All.bind (share_read _ g) ?_
    rintro ⟨s1, g1⟩ h1
    dsimp only at h1 ⊢
    refine Res.All.bind (addSyms_read o z p f.id _ _ g1 {}) ?_
    rintro ⟨s2, g2, b2⟩ h2
    dsimp only at h2 ⊢
    refine Res.All.bind (keep_read s2 g2) ?_
    intro s3 h3
    refine Res.All.bind' fun _ _ => ?_
    exact h3.trans (h2.trans h1)

theorem writeSym_read (o : Merge.Opt) (z : Cz) (srt : List MRec → List MRec) (p : Pass) (s : MState) (n : Nat) :
    (writeSym o z srt p s n).All fun x => x.read = s.read := by
  unfold writeSym
  refine Res.All.bind' fun y _ => ?_
  split
  · rfl
  · split
    · rfl
    · refine Res.All.bind' fun a _ => ?_
      refine Res.All.bind' fun a _ => ?_
      refine Res.All.bind' fun a _ => ?_
      rfl

theorem writeSyms_read (o : Merge.Opt) (z : Cz) (srt : List MRec → List MRec) (p : Pass) : ∀ (ns : List Nat) (s : MState),
    (writeSyms o z srt p s ns).All fun x => x.read = s.read := by
  intro ns
  induction ns with
  | nil => intro s; rfl
  | cons n ns ih =>
    intro s
    refine Res.All.bind (writeSym_read o z srt p s n) ?_
    intro s1 h1
    exact (ih s1).mono fun _ h => h.trans h1

theorem bigFile_read (z : Cz) (n : Nat) (s : MState) (b : Bufs) (f : Merge.InFile) : (bigFile z n s b f).All fun x => ∀ y, x = some y → y.1.read = s.read := by
  unfold bigFile
  refine Res.All.bind' fun a _ => ?_
  dsimp only
  split
  · intro y hy; cases hy
  · refine Res.All.bind' fun y _ => ?_
    refine Res.All.bind (Q := fun x : MState × Gx × Bufs => x.1.read = s.read) ?_ ?_
    · split
      · exact collect_read ..
      · rfl
    · rintro ⟨s1, g1, b1⟩ h1
      dsimp only at h1 ⊢
      refine Res.All.bind (keep_read s1 g1) ?_
      intro s2 h2
      refine Res.All.bind' fun _ _ => ?_
      intro y hy
      injection hy with hy
      subst hy
      exact h2.trans h1

theorem bigFiles_read (z : Cz) (n : Nat) : ∀ (fs : List Merge.InFile) (s : MState) (b : Bufs), (bigFiles z n s b fs).All fun x => x.1.read = s.read := by
  intro fs
  induction fs with
  | nil => intro s b; rfl
  | cons f fs ih =>
    intro s b
    refine Res.All.bind (bigFile_read z n s b f) ?_
    intro r hr
    cases r with
    | none => rfl
    | some y =>
      obtain ⟨s1, b1⟩ := y
      exact (ih s1 b1).mono fun _ h => h.trans (hr _ rfl)

theorem collectBig_read (z : Cz) (fs : List Merge.InFile) (s : MState) (n : Nat) : (collectBig z fs s n).All fun x => x.1.read = s.read := by
  unfold collectBig
  refine Res.All.bind' fun y _ => ?_
  split
  · rfl
  · refine Res.All.bind (bigFiles_read z n fs _ {}) ?_
    rintro ⟨s1, ok⟩ h1
    dsimp only at h1 ⊢
    split
    · exact h1
    · exact h1

theorem bigSyms_read (o : Merge.Opt) (z : Cz) (srt : List MRec → List MRec) (fs : List Merge.InFile) : ∀ (ns : List Nat) (s : MState),
    (bigSyms o z srt fs s ns).All fun x => x.read = s.read := by
  intro ns
  induction ns with
  | nil => intro s; rfl
  | cons n ns ih =>
    intro s
    refine Res.All.bind (collectBig_read z fs s n) ?_
    rintro ⟨s1, ok⟩ h1
    refine Res.All.bind (Q := fun x : MState => x.read = s.read) ?_ ?_
    · split
      · exact (writeSym_read ..).mono fun _ h => h.trans h1
      · exact h1
    · intro s2 h2
      exact (ih s2).mono fun _ h => h.trans h2

/-- the number of the files that the library reads; the others it refuses or cannot open -/
inductive Readable (z : Cz) : List Merge.InFile → Nat → Prop
  | nil : Readable z [] 0
  | read {f fs n c} : f.disk = .content c → Spec.Accepted z.rd c true → Readable z fs n → Readable z (f :: fs) (n + 1)
  | refused {f fs n c err} : f.disk = .content c → Refused z.rd c true err → Readable z fs n → Readable z (f :: fs) n
  | missing {f fs n} : (∀ c, f.disk ≠ .content c) → Readable z fs n → Readable z (f :: fs) n

theorem open_counts {z : Cz} {f : Merge.InFile} (hf : f.disk ≠ .ioErr 0) {g : Gx} {b : Bool} {err : Int} (h : openReadXX z Gx.new f.disk 0 = .ok (g, (b, err))) :
    (err = 0 ∧ ∃ c, f.disk = .content c ∧ Spec.Accepted z.rd c true) ∨ (err ≠ 0 ∧ ((∃ c n, f.disk = .content c ∧ Refused z.rd c true n) ∨ ∀ c, f.disk ≠ .content c)) := by
  cases hd : f.disk with
  | noName =>
    rw [hd] at h
    cases h
    exact .inr ⟨by decide, .inr fun c hc => nomatch hc⟩
  | ioErr e =>
    rw [hd] at h hf
    have he : err = e := by cases h; rfl
    exact .inr ⟨fun h => hf (by rw [← he, h]), .inr fun c hc => nomatch hc⟩
  | content c =>
    rw [hd] at h
    have := C41_opening z Gx.new c 0 rfl
    rw [h] at this
    have this : if b = true then Spec.Accepted z.rd c (decide ((0 : Int) % 2 = 0)) ∧ err = 0 ∧ g.mode = .rInit ∧ g.stat = .read
        else Refused z.rd c (decide ((0 : Int) % 2 = 0)) err ∧ g.lastErr = err ∧ g.opened = false ∧ g.mode = .notOpen ∧ g.stat = Gx.new.stat := this
    cases b with
    | false => exact .inr ⟨refused_ne this.1, .inl ⟨c, err, rfl, this.1⟩⟩
    | true => exact .inl ⟨this.2.1, c, rfl, this.1⟩

/-- the number of the files that can be opened -/
def numOpen (z : Cz) : List Merge.InFile → Nat
  | [] => 0
  | f :: fs => numOpen z fs + match openReadXX z Gx.new f.disk 0 with
    | .ok (_, (_, err)) => if err = 0 then 1 else 0
    | .ub => 0

theorem addFiles_read (o : Merge.Opt) (z : Cz) (p : Pass) : ∀ (fs : List Merge.InFile), (∀ f ∈ fs, f.disk ≠ .ioErr 0) → ∀ s : MState,
    (addFiles o z p s fs).All fun x => Readable z fs (numOpen z fs) ∧ x.read = s.read + numOpen z fs := by
  intro fs
  induction fs with
  | nil => intro _ s; exact ⟨.nil, rfl⟩
  | cons f fs ih =>
    intro hf s
    refine Res.All.bind (Q := fun x : MState => ∃ k, x.read = s.read + k ∧ numOpen z (f :: fs) = numOpen z fs + k ∧ ∀ n, Readable z fs n → Readable z (f :: fs) (n + k)) ?_ ?_
    · refine Res.All_of fun s1 h1 => ?_
      have h0 := h1
      unfold addFile at h0
      obtain ⟨⟨g, b, err⟩, ho, _⟩ := Res.bind_eq_ok.mp h0
      have hr := (addFile_read o z p s f ho).of_ok h1
      rcases open_counts (hf f (by simp)) ho with ⟨e1, c, e2, e3⟩ | ⟨e1, e2⟩
      · rw [if_neg (by simp [e1])] at hr
        refine ⟨1, hr, ?_, fun n hn => .read e2 e3 hn⟩
        rw [numOpen, ho]
        simp [e1]
      · rw [if_pos e1] at hr
        refine ⟨0, hr, ?_, fun n hn => ?_⟩
        · rw [numOpen, ho]
          simp [e1]
        rcases e2 with ⟨c, k, e2, e3⟩ | e2
        · exact .refused e2 e3 hn
        · exact .missing e2 hn
    · rintro s1 ⟨k, k1, k2, k3⟩
      refine (ih (fun x hx => hf x (by simp [hx])) s1).mono ?_
      rintro s2 ⟨n1, n2⟩
      rw [k2]
      exact ⟨k3 _ n1, by omega⟩

/-- InputFilesRead -/
theorem mergeTo_read (o : Merge.Opt) (e : Env) (z : Cz) (srt : List MRec → List MRec) (fs : List Merge.InFile) (hf : ∀ f ∈ fs, f.disk ≠ .ioErr 0) :
    (mergeTo o e z srt fs).All fun s => Readable z fs (numOpen z fs) ∧ s.read = if o.big.isSome then 2 * numOpen z fs else numOpen z fs := by
  unfold mergeTo
  refine Res.All.bind' fun a _ => ?_
  dsimp only
  refine Res.All.bind (Q := fun s : MState => Readable z fs (numOpen z fs) ∧ s.read = if o.big.isSome then 2 * numOpen z fs else numOpen z fs) ?_ ?_
  · cases ob : o.big with
    | none =>
      refine Res.All.bind (addFiles_read o z .doAll fs hf _) ?_
      rintro s1 ⟨n1, n2⟩
      refine (writeSyms_read o z srt .doAll _ s1).mono ?_
      intro s2 h2
      exact ⟨n1, by rw [h2, n2]; simp⟩
    | some c =>
      refine Res.All.bind (addFiles_read o z .scan fs hf _) ?_
      rintro s1 ⟨n1, n2⟩
      refine Res.All.bind (addFiles_read o z .small fs hf s1) ?_
      rintro s2 ⟨m1, m2⟩
      refine Res.All.bind (writeSyms_read o z srt .small _ s2) ?_
      intro s3 h3
      refine (bigSyms_read o z srt fs _ s3).mono ?_
      intro s4 h4
      exact ⟨n1, by rw [h4, h3, m2, n2]; simp; omega⟩
  · intro s hs
    exact Res.All.bind' fun _ _ => hs

theorem numOpen_all {z : Cz} : ∀ fs : List Merge.InFile, (∀ f ∈ fs, ∃ g b, openReadXX z Gx.new f.disk 0 = .ok (g, (b, 0))) → numOpen z fs = fs.length := by
  intro fs
  induction fs with
  | nil => intro _; rfl
  | cons f fs ih =>
    intro h
    obtain ⟨g, b, h1⟩ := h f (by simp)
    rw [numOpen, h1, ih fun x hx => h x (by simp [hx])]
    simp

end Gdx.Props
