import Verif.Spec.Shape
import Verif.Proofs.DocText
/-!
# Meanings of trees of the same shape

The meaning of a tree does not look at the argument values, and depends on what was committed
before only through the numbering of the marks.
-/

namespace Sqlf

open Spec

/-! ## Pointwise -/

theorem Spec.Pointwise.length {R : α → β → Prop} {l : List α} {m : List β} (h : Pointwise R l m) :
    l.length = m.length := by
  induction h with
  | nil => rfl
  | cons _ _ ih => simp [ih]

theorem Spec.Pointwise.append {R : α → β → Prop} {l l' : List α} {m m' : List β} (h : Pointwise R l m)
    (h' : Pointwise R l' m') : Pointwise R (l ++ l') (m ++ m') := by
  induction h with
  | nil => exact h'
  | cons hr _ ih => exact .cons hr ih

theorem Spec.Pointwise.get {R : α → β → Prop} {l : List α} {m : List β} (h : Pointwise R l m) (k : Nat) :
    (l[k]? = none ∧ m[k]? = none) ∨ ∃ a b, l[k]? = some a ∧ m[k]? = some b ∧ R a b := by
  induction h generalizing k with
  | nil => simp
  | cons hr _ ih =>
    cases k with
    | zero => simp [hr]
    | succ k => simpa using ih k

theorem Spec.Pointwise.item {R : α → β → Prop} {l : List α} {m : List β} (h : Pointwise R l m) (i : Int) :
    (item? i l = none ∧ item? i m = none) ∨
      ∃ a b, item? i l = some a ∧ item? i m = some b ∧ R a b := by
  unfold item?
  by_cases hi : 1 ≤ i
  · simp only [if_pos hi]; exact h.get _
  · simp [if_neg hi]

theorem Spec.Pointwise.refl {R : α → α → Prop} {l : List α} (h : ∀ a ∈ l, R a a) : Pointwise R l l := by
  induction l with
  | nil => exact .nil
  | cons a l ih => exact .cons (h a (by simp)) (ih fun b hb => h b (by simp [hb]))

theorem Spec.Pointwise.eq {l m : List α} (h : Pointwise Eq l m) : l = m := by
  induction h with
  | nil => rfl
  | cons hr _ ih => rw [hr, ih]

theorem Spec.Pointwise.mono {R S : α → β → Prop} {l : List α} {m : List β} (h : Pointwise R l m)
    (hrs : ∀ a b, R a b → S a b) : Pointwise S l m := by
  induction h with
  | nil => exact .nil
  | cons hr _ ih => exact .cons (hrs _ _ hr) ih

theorem Spec.Pointwise.left {R : α → β → Prop} {P : α → Prop} {l : List α} {m : List β}
    (h : Pointwise R l m) (hp : ∀ a b, R a b → P a) : ∀ a ∈ l, P a := by
  induction h with
  | nil => simp
  | cons hr _ ih =>
    intro a ha
    rcases List.mem_cons.1 ha with rfl | ha
    · exact hp _ _ hr
    · exact ih a ha

/-! ## Shifting marks -/

def shiftAtom (k : Nat) : Atom → Atom
  | .byte b => .byte b
  | .bind j => .bind (k + j)

/-- The document with all marks moved up by `k`. -/
def shiftDoc (k : Nat) (d : Doc) : Doc := d.map (shiftAtom k)

theorem shiftDoc_append (k : Nat) (d e : Doc) : shiftDoc k (d ++ e) = shiftDoc k d ++ shiftDoc k e :=
  List.map_append ..

theorem shiftDoc_ofStr (k : Nat) (s : Str) : shiftDoc k (Doc.ofStr s) = Doc.ofStr s := by
  simp [shiftDoc, Doc.ofStr, shiftAtom]

theorem shiftDoc_shiftDoc (k j : Nat) (d : Doc) : shiftDoc k (shiftDoc j d) = shiftDoc (k + j) d := by
  unfold shiftDoc
  rw [List.map_map]
  apply List.map_congr_left
  intro a _
  cases a <;> simp [shiftAtom, Nat.add_assoc]

theorem shiftDoc_zero (d : Doc) : shiftDoc 0 d = d := by
  unfold shiftDoc
  conv => rhs; rw [← List.map_id d]
  apply List.map_congr_left
  intro a _
  cases a <;> simp [shiftAtom]

theorem shiftDoc_eq_nil (k : Nat) (d : Doc) : shiftDoc k d = [] ↔ d = [] := by simp [shiftDoc]

theorem leadText_shift (k : Nat) (d : Doc) : leadText (shiftDoc k d) = leadText d := by
  induction d with
  | nil => rfl
  | cons a d ih => cases a <;> simp_all [shiftDoc, shiftAtom, leadText]

theorem fromMark_shift (k : Nat) (d : Doc) : fromMark (shiftDoc k d) = shiftDoc k (fromMark d) := by
  induction d with
  | nil => rfl
  | cons a d ih => cases a <;> simp_all [shiftDoc, shiftAtom, fromMark]

theorem reverse_shift (k : Nat) (d : Doc) : (shiftDoc k d).reverse = shiftDoc k d.reverse := by
  simp [shiftDoc]

theorem trimDoc_shift (k : Nat) (d : Doc) : trimDoc (shiftDoc k d) = shiftDoc k (trimDoc d) := by
  have hl : ∀ d, trimLeftDoc (shiftDoc k d) = shiftDoc k (trimLeftDoc d) := by
    intro d
    unfold trimLeftDoc
    rw [leadText_shift, fromMark_shift, shiftDoc_append, shiftDoc_ofStr]
  have hr : ∀ d, trimRightDoc (shiftDoc k d) = shiftDoc k (trimRightDoc d) := by
    intro d
    unfold trimRightDoc tailText toMark
    rw [reverse_shift, leadText_shift, fromMark_shift, shiftDoc_append, shiftDoc_ofStr, reverse_shift]
  unfold trimDoc
  rw [hl, hr]

theorem decorateDoc_shift (k : Nat) (pre suf : Str) (d : Doc) :
    decorateDoc pre suf (shiftDoc k d) = shiftDoc k (decorateDoc pre suf d) := by
  unfold decorateDoc
  rw [trimDoc_shift]
  by_cases h : trimDoc d = []
  · rw [if_pos h, if_pos ((shiftDoc_eq_nil _ _).2 h)]; rfl
  · rw [if_neg h, if_neg (fun hc => h ((shiftDoc_eq_nil _ _).1 hc))]
    simp only [shiftDoc_append]
    congr 1
    · congr 1
      split <;> simp [shiftDoc_append, shiftDoc_ofStr] ; rfl
    · split <;> simp [shiftDoc_append, shiftDoc_ofStr] ; rfl

theorem joinDoc_shift (k : Nat) (sep : Str) (acc d : Doc) :
    joinDoc sep (shiftDoc k acc) (shiftDoc k d) = shiftDoc k (joinDoc sep acc d) := by
  unfold joinDoc
  simp only [shiftDoc_eq_nil]
  split
  · rfl
  · split
    · rfl
    · simp [shiftDoc_append, shiftDoc_ofStr]

theorem binds_shift (k : Nat) (d : Doc) : binds (shiftDoc k d) = (binds d).map (k + ·) := by
  induction d with
  | nil => rfl
  | cons a d ih => cases a <;> simp_all [shiftDoc, shiftAtom, binds]

/-! ## Related meanings -/

def DocR (k1 k2 : Nat) (d1 d2 : Doc) : Prop := ∃ e, d1 = shiftDoc k1 e ∧ d2 = shiftDoc k2 e

def ResR (k1 k2 : Nat) : Res Doc → Res Doc → Prop
  | .ok d1, .ok d2 => DocR k1 k2 d1 d2
  | .invalidIndex, .invalidIndex => True
  | .error, .error => True
  | .panic, .panic => True
  | _, _ => False

/-- The logs grew by related values since `l1`, `l2`. -/
def LogR (R : Val → Val → Prop) (l1 l2 m1 m2 : List Val) : Prop :=
  ∃ δ1 δ2, m1 = l1 ++ δ1 ∧ m2 = l2 ++ δ2 ∧ Pointwise R δ1 δ2

structure SessR (R : Val → Val → Prop) (l1 l2 : List Val) (s1 s2 : Session) : Prop where
  log : LogR R l1 l2 s1.log s2.log
  used : s1.used = s2.used

def StepR (R : Val → Val → Prop) (l1 l2 : List Val) (c1 c2 : Step Doc) : Prop :=
  ∀ s1 s2, SessR R l1 l2 s1 s2 → ResR l1.length l2.length (c1 s1).1 (c2 s2).1 ∧
    SessR R l1 l2 (c1 s1).2 (c2 s2).2

def SemR (R : Val → Val → Prop) (f1 f2 : Sem) : Prop :=
  ∀ l1 l2, ResR l1.length l2.length (f1 l1).1 (f2 l2).1 ∧ LogR R l1 l2 (f1 l1).2 (f2 l2).2

structure ScopeR (R : Val → Val → Prop) (sc1 sc2 : Scope) : Prop where
  args : Pointwise R sc1.args sc2.args
  frags : Pointwise (SemR R) sc1.frags sc2.frags

theorem docR_ofStr (k1 k2 : Nat) (s : Str) : DocR k1 k2 (Doc.ofStr s) (Doc.ofStr s) :=
  ⟨Doc.ofStr s, (shiftDoc_ofStr _ _).symm, (shiftDoc_ofStr _ _).symm⟩

theorem DocR.append {k1 k2 : Nat} {d1 d2 e1 e2 : Doc} (hd : DocR k1 k2 d1 d2) (he : DocR k1 k2 e1 e2) :
    DocR k1 k2 (d1 ++ e1) (d2 ++ e2) := by
  obtain ⟨d, rfl, rfl⟩ := hd
  obtain ⟨e, rfl, rfl⟩ := he
  exact ⟨d ++ e, (shiftDoc_append _ _ _).symm, (shiftDoc_append _ _ _).symm⟩

theorem DocR.joinDoc {k1 k2 : Nat} {d1 d2 e1 e2 : Doc} (sep : Str) (hd : DocR k1 k2 d1 d2)
    (he : DocR k1 k2 e1 e2) : DocR k1 k2 (joinDoc sep d1 e1) (joinDoc sep d2 e2) := by
  obtain ⟨d, rfl, rfl⟩ := hd
  obtain ⟨e, rfl, rfl⟩ := he
  exact ⟨Spec.joinDoc sep d e, joinDoc_shift .., joinDoc_shift ..⟩

theorem ResR.up {k1 k2 n : Nat} {r1 r2 : Res Doc} (h : ResR (k1 + n) (k2 + n) r1 r2) :
    ResR k1 k2 r1 r2 := by
  cases r1 <;> cases r2 <;> try exact h
  obtain ⟨e, rfl, rfl⟩ := h
  exact ⟨shiftDoc n e, (shiftDoc_shiftDoc ..).symm, (shiftDoc_shiftDoc ..).symm⟩

theorem LogR.refl (R : Val → Val → Prop) (l1 l2 : List Val) : LogR R l1 l2 l1 l2 :=
  ⟨[], [], by simp, by simp, .nil⟩

theorem LogR.trans {R : Val → Val → Prop} {l1 l2 m1 m2 n1 n2 : List Val} (h : LogR R l1 l2 m1 m2)
    (h' : LogR R m1 m2 n1 n2) : LogR R l1 l2 n1 n2 := by
  obtain ⟨a1, a2, rfl, rfl, ha⟩ := h
  obtain ⟨b1, b2, rfl, rfl, hb⟩ := h'
  exact ⟨a1 ++ b1, a2 ++ b2, by simp, by simp, ha.append hb⟩

theorem LogR.len {R : Val → Val → Prop} {l1 l2 m1 m2 : List Val} (h : LogR R l1 l2 m1 m2) :
    ∃ n, m1.length = l1.length + n ∧ m2.length = l2.length + n := by
  obtain ⟨a1, a2, rfl, rfl, ha⟩ := h
  exact ⟨a1.length, by simp, by simp [ha.length]⟩

theorem stepR_fail (R : Val → Val → Prop) (l1 l2 : List Val) {r : Res Doc}
    (h : ResR l1.length l2.length r r) : StepR R l1 l2 (.fail r) (.fail r) :=
  fun _ _ hs => ⟨h, hs⟩

theorem StepR.bind {R : Val → Val → Prop} {l1 l2 : List Val} {c1 c2 : Step Doc} {k1 k2 : Doc → Step Doc}
    (h : StepR R l1 l2 c1 c2)
    (hk : ∀ d1 d2, DocR l1.length l2.length d1 d2 → StepR R l1 l2 (k1 d1) (k2 d2)) :
    StepR R l1 l2 (.bind c1 k1) (.bind c2 k2) := by
  intro s1 s2 hs
  have h1 := h s1 s2 hs
  unfold Step.bind
  rcases e1 : c1 s1 with ⟨r1, t1⟩
  rcases e2 : c2 s2 with ⟨r2, t2⟩
  rw [e1, e2] at h1
  obtain ⟨hr, ht⟩ := h1
  cases r1 <;> cases r2 <;> try (exact hr.elim)
  · exact hk _ _ hr _ _ ht
  · exact ⟨trivial, ht⟩
  · exact ⟨trivial, ht⟩
  · exact ⟨trivial, ht⟩

theorem StepR.contain {R : Val → Val → Prop} {l1 l2 : List Val} {c1 c2 : Step Doc}
    (h : StepR R l1 l2 c1 c2) : StepR R l1 l2 c1.contain c2.contain := by
  intro s1 s2 hs
  have h1 := h s1 s2 hs
  unfold Step.contain
  rcases e1 : c1 s1 with ⟨r1, t1⟩
  rcases e2 : c2 s2 with ⟨r2, t2⟩
  rw [e1, e2] at h1
  obtain ⟨hr, ht⟩ := h1
  cases r1 <;> cases r2 <;> try (exact hr.elim)
  · exact ⟨hr, ht⟩
  · exact ⟨trivial, ht⟩
  · exact ⟨trivial, ht⟩
  · exact ⟨trivial, ht⟩

section
variable {R : Val → Val → Prop} {bad1 bad2 : Val → Bool}
  (hbad : ∀ v1 v2, R v1 v2 → bad1 v1 = bad2 v2)
include hbad

theorem argDoc_rel {l1 l2 : List Val} {sc1 sc2 : Scope} (hsc : ScopeR R sc1 sc2) (i : Int) :
    StepR R l1 l2 (argDoc bad1 sc1 i) (argDoc bad2 sc2 i) := by
  intro s1 s2 hs
  unfold argDoc
  rcases hsc.args.item i with ⟨h1, h2⟩ | ⟨a, b, h1, h2, hr⟩
  · rw [h1, h2]; exact ⟨trivial, hs⟩
  · rw [h1, h2]
    simp only [commitDoc, hbad a b hr]
    by_cases hb : bad2 b = true
    · rw [if_pos hb, if_pos hb]
      exact ⟨trivial, hs.log, congrArg (Ref.arg i :: ·) hs.used⟩
    · rw [if_neg hb, if_neg hb]
      obtain ⟨n, hn1, hn2⟩ := hs.log.len
      refine ⟨⟨[.bind n], ?_, ?_⟩, ?_, congrArg (Ref.arg i :: ·) hs.used⟩
      · simp only [hn1]; rfl
      · simp only [hn2]; rfl
      · exact hs.log.trans ⟨[a], [b], rfl, rfl, .cons hr .nil⟩

omit hbad in
theorem fragDoc_rel {l1 l2 : List Val} {sc1 sc2 : Scope} (hsc : ScopeR R sc1 sc2) (i : Int) :
    StepR R l1 l2 (fragDoc sc1 i) (fragDoc sc2 i) := by
  intro s1 s2 hs
  unfold fragDoc
  rcases hsc.frags.item i with ⟨h1, h2⟩ | ⟨f, g, h1, h2, hr⟩
  · rw [h1, h2]; exact ⟨trivial, hs⟩
  · rw [h1, h2]
    obtain ⟨hres, hlog⟩ := hr s1.log s2.log
    obtain ⟨n, hn1, hn2⟩ := hs.log.len
    rw [hn1, hn2] at hres
    exact ⟨hres.up, hs.log.trans hlog, congrArg (Ref.frag i :: ·) hs.used⟩

omit hbad in
theorem itemsDoc_rel {l1 l2 : List Val} {ev1 ev2 : List Expr → Step Doc}
    (hev : ∀ es, StepR R l1 l2 (ev1 es) (ev2 es)) (es : List Expr) (sep : Str) (first to : Int)
    (n : Nat) (i : Int) {acc1 acc2 : Doc} (hacc : DocR l1.length l2.length acc1 acc2) :
    StepR R l1 l2 (itemsDoc ev1 es sep first to n i acc1) (itemsDoc ev2 es sep first to n i acc2) := by
  induction n generalizing i acc1 acc2 with
  | zero => exact stepR_fail R l1 l2 trivial
  | succ n ih =>
    intro s1 s2 hs
    have h1 := hev (atIndex i es) s1 s2 hs
    unfold itemsDoc
    rcases e1 : ev1 (atIndex i es) s1 with ⟨r1, t1⟩
    rcases e2 : ev2 (atIndex i es) s2 with ⟨r2, t2⟩
    rw [e1, e2] at h1
    obtain ⟨hr, ht⟩ := h1
    cases r1 <;> cases r2 <;> try (exact hr.elim)
    · dsimp only
      split
      · exact ⟨hacc.joinDoc sep hr, ht⟩
      · exact ih _ (hacc.joinDoc sep hr) _ _ ht
    · dsimp only
      split
      · exact ⟨trivial, ht⟩
      · exact ⟨hacc, ht⟩
    · exact ⟨trivial, ht⟩
    · exact ⟨trivial, ht⟩

omit hbad in
theorem joinCall_rel {l1 l2 : List Val} {ev1 ev2 : List Expr → Step Doc}
    (hev : ∀ es, StepR R l1 l2 (ev1 es) (ev2 es)) (parse : Str → Option (List Expr)) (items : Nat)
    (tmpl sep : Str) (is : List Int) :
    StepR R l1 l2 (joinCall parse ev1 items tmpl sep is) (joinCall parse ev2 items tmpl sep is) := by
  unfold joinCall
  split
  · exact stepR_fail R l1 l2 trivial
  · dsimp only
    split
    · exact stepR_fail R l1 l2 trivial
    · split
      · exact stepR_fail R l1 l2 trivial
      · split
        · exact stepR_fail R l1 l2 trivial
        · exact itemsDoc_rel hev _ _ _ _ _ _ ⟨[], rfl, rfl⟩

theorem exprDoc_rel {l1 l2 : List Val} {sc1 sc2 : Scope} (hsc : ScopeR R sc1 sc2)
    {c1 c2 : Str → List CallArg → Step Doc} (hc : ∀ name as, StepR R l1 l2 (c1 name as) (c2 name as))
    (e : Expr) : StepR R l1 l2 (exprDoc bad1 sc1 c1 e) (exprDoc bad2 sc2 c2 e) := by
  cases e with
  | plain t => exact fun s1 s2 hs => ⟨docR_ofStr _ _ t, hs⟩
  | func f => exact stepR_fail R l1 l2 trivial
  | call name as => exact hc name as
  | bindVar t i =>
    unfold exprDoc
    dsimp only
    rcases hsc.args.item i with ⟨h1, h2⟩ | ⟨a, b, h1, h2, hr⟩
    · rw [h1, h2]; exact stepR_fail R l1 l2 trivial
    · rw [h1, h2]; exact argDoc_rel hbad hsc i

theorem clauseDoc_rel {l1 l2 : List Val} {sc1 sc2 : Scope} (hsc : ScopeR R sc1 sc2)
    {c1 c2 : Str → List CallArg → Step Doc} (hc : ∀ name as, StepR R l1 l2 (c1 name as) (c2 name as))
    (es : List Expr) : StepR R l1 l2 (clauseDoc bad1 sc1 c1 es) (clauseDoc bad2 sc2 c2 es) := by
  induction es with
  | nil => exact fun s1 s2 hs => ⟨⟨[], rfl, rfl⟩, hs⟩
  | cons e es ih =>
    exact (exprDoc_rel hbad hsc hc e).bind fun d1 d2 hd => ih.bind fun e1 e2 he =>
      fun s1 s2 hs => ⟨hd.append he, hs⟩

theorem callDoc_rel (L : GoLib) (parse : Str → Option (List Expr)) {l1 l2 : List Val}
    {sc1 sc2 : Scope} (hsc : ScopeR R sc1 sc2) (depth : Nat) (name : Str) (as : List CallArg) :
    StepR R l1 l2 (callDoc L parse bad1 sc1 depth name as) (callDoc L parse bad2 sc2 depth name as) := by
  induction depth generalizing name as with
  | zero =>
    unfold callDoc
    split
    · split
      · exact stepR_fail R l1 l2 trivial
      · exact (argDoc_rel hbad hsc _).contain
    · split
      · split
        · exact stepR_fail R l1 l2 trivial
        · exact (fragDoc_rel hsc _).contain
      · split
        · split <;> exact stepR_fail R l1 l2 trivial
        · exact stepR_fail R l1 l2 trivial
  | succ depth ih =>
    unfold callDoc
    split
    · split
      · exact stepR_fail R l1 l2 trivial
      · exact (argDoc_rel hbad hsc _).contain
    · split
      · split
        · exact stepR_fail R l1 l2 trivial
        · exact (fragDoc_rel hsc _).contain
      · split
        · split
          · rw [hsc.args.length, hsc.frags.length]
            exact StepR.contain (joinCall_rel (fun es => clauseDoc_rel hbad hsc ih es) _ _ _ _ _)
          · exact stepR_fail R l1 l2 trivial
          · exact stepR_fail R l1 l2 trivial
        · exact stepR_fail R l1 l2 trivial

theorem fragmentSem_rel (L : GoLib) (parse : Str → Option (List Expr)) (raw : Str)
    {args1 args2 : List Val} {frags1 frags2 : List Sem} (ha : Pointwise R args1 args2)
    (hf : Pointwise (SemR R) frags1 frags2) (pre suf : Str) :
    SemR R (fragmentSem L parse bad1 raw args1 frags1 pre suf)
      (fragmentSem L parse bad2 raw args2 frags2 pre suf) := by
  intro l1 l2
  have hsc : ScopeR R ⟨args1, frags1⟩ ⟨args2, frags2⟩ := ⟨ha, hf⟩
  unfold fragmentSem
  cases parse raw with
  | none => exact ⟨trivial, LogR.refl ..⟩
  | some es =>
    have h := clauseDoc_rel hbad hsc (callDoc_rel hbad L parse hsc raw.length) es
      (l1 := l1) (l2 := l2) ⟨l1, []⟩ ⟨l2, []⟩ ⟨LogR.refl .., rfl⟩
    dsimp only
    rcases e1 : clauseDoc bad1 ⟨args1, frags1⟩ (callDoc L parse bad1 ⟨args1, frags1⟩ raw.length) es
      ⟨l1, []⟩ with ⟨r1, t1⟩
    rcases e2 : clauseDoc bad2 ⟨args2, frags2⟩ (callDoc L parse bad2 ⟨args2, frags2⟩ raw.length) es
      ⟨l2, []⟩ with ⟨r2, t2⟩
    rw [e1, e2] at h
    obtain ⟨hr, ht⟩ := h
    cases r1 <;> cases r2 <;> try (exact hr.elim)
    · dsimp only
      rw [ht.used, ha.length, hf.length]
      split
      · obtain ⟨e, rfl, rfl⟩ := hr
        exact ⟨⟨decorateDoc pre suf e, decorateDoc_shift .., decorateDoc_shift ..⟩, ht.log⟩
      · exact ⟨trivial, ht.log⟩
    · exact ⟨trivial, ht.log⟩
    · exact ⟨trivial, ht.log⟩
    · exact ⟨trivial, ht.log⟩

omit hbad in
theorem semR_text (t : Str) : SemR R (fun log => (.ok (Doc.ofStr t), log))
    (fun log => (.ok (Doc.ofStr t), log)) :=
  fun _ _ => ⟨docR_ofStr _ _ t, LogR.refl ..⟩

omit hbad in
theorem semR_panic : SemR R (fun log => (.panic, log)) (fun log => (.panic, log)) :=
  fun _ _ => ⟨trivial, LogR.refl ..⟩

mutual
theorem sem_rel (L : GoLib) (parse : Str → Option (List Expr)) : ∀ b c, SameShape R b c →
    SemR R (sem L parse bad1 b) (sem L parse bad2 c)
  | .frag f, c, h => by
    cases c <;> simp only [SameShape] at h
    rw [sem, sem]; exact semF_rel L parse _ _ h
  | .column _ f, c, h => by
    cases c <;> simp only [SameShape] at h
    rw [sem, sem]; exact semF_rel L parse _ _ h
  | .table t, c, h => by
    cases c <;> simp only [SameShape] at h
    subst h; rw [sem, sem]; exact semR_text _
  | .aliased n a, c, h => by
    cases c <;> simp only [SameShape] at h
    obtain ⟨rfl, rfl⟩ := h; rw [sem, sem]; exact semR_text _
  | .nil, c, h => by
    cases c <;> simp only [SameShape] at h
    unfold sem; exact semR_panic
  | .nilFrag, c, h => by
    cases c <;> simp only [SameShape] at h
    unfold sem; exact semR_text []
  | .nilColumn, c, h => by
    cases c <;> simp only [SameShape] at h
    unfold sem; exact semR_panic
  | .columnNilFrag _, c, h => by
    cases c <;> simp only [SameShape] at h
    unfold sem; exact semR_text []
  | .nilQb, c, h => by
    cases c <;> simp only [SameShape] at h
    unfold sem; exact semR_text []
  | .qb _, c, h => by
    cases c <;> simp only [SameShape] at h
  | .custom _, c, h => by
    cases c <;> simp only [SameShape] at h
theorem semF_rel (L : GoLib) (parse : Str → Option (List Expr)) : ∀ f g, SameShapeF R f g →
    SemR R (semF L parse bad1 f) (semF L parse bad2 g)
  | .mk raw args frags pre suf, .mk raw' args' frags' pre' suf', h => by
    rw [SameShapeF] at h
    obtain ⟨rfl, ha, hf, rfl, rfl⟩ := h
    rw [semF, semF]
    exact fragmentSem_rel hbad L parse raw ha (semL_rel L parse _ _ hf) pre suf
theorem semL_rel (L : GoLib) (parse : Str → Option (List Expr)) : ∀ bs cs, SameShapeL R bs cs →
    Pointwise (SemR R) (semL L parse bad1 bs) (semL L parse bad2 cs)
  | [], [], _ => by rw [semL, semL]; exact .nil
  | [], _ :: _, h => by simp [SameShapeL] at h
  | _ :: _, [], h => by simp [SameShapeL] at h
  | b :: bs, c :: cs, h => by
    rw [SameShapeL] at h
    rw [semL, semL]
    exact .cons (sem_rel L parse b c h.1) (semL_rel L parse bs cs h.2)
end
end

/-! ## A tree compared with itself -/

mutual
theorem sameShape_self {R : Val → Val → Prop} {P : Val → Prop} (hR : ∀ v, P v → R v v) :
    ∀ b, IsTree b → AllVals P b → SameShape R b b
  | .frag f, ht, ha => by rw [SameShape]; rw [IsTree] at ht; rw [AllVals] at ha; exact sameShape_selfF hR f ht ha
  | .column _ f, ht, ha => by rw [SameShape]; rw [IsTree] at ht; rw [AllVals] at ha; exact sameShape_selfF hR f ht ha
  | .table t, _, _ => by rw [SameShape]
  | .aliased n a, _, _ => by rw [SameShape]; exact ⟨rfl, rfl⟩
  | .nil, _, _ => by simp [SameShape]
  | .nilFrag, _, _ => by simp [SameShape]
  | .nilColumn, _, _ => by simp [SameShape]
  | .columnNilFrag _, _, _ => by simp [SameShape]
  | .nilQb, _, _ => by simp [SameShape]
  | .qb _, ht, _ => by simp [IsTree] at ht
  | .custom _, ht, _ => by simp [IsTree] at ht
theorem sameShape_selfF {R : Val → Val → Prop} {P : Val → Prop} (hR : ∀ v, P v → R v v) :
    ∀ f, IsTreeF f → AllValsF P f → SameShapeF R f f
  | .mk raw args frags pre suf, ht, ha => by
    rw [SameShapeF]; rw [IsTreeF] at ht; rw [AllValsF] at ha
    exact ⟨rfl, Pointwise.refl fun v hv => hR v (ha.1 v hv), sameShape_selfL hR frags ht ha.2, rfl, rfl⟩
theorem sameShape_selfL {R : Val → Val → Prop} {P : Val → Prop} (hR : ∀ v, P v → R v v) :
    ∀ bs, IsTreeL bs → AllValsL P bs → SameShapeL R bs bs
  | [], _, _ => by simp [SameShapeL]
  | b :: bs, ht, ha => by
    rw [SameShapeL]; rw [IsTreeL] at ht; rw [AllValsL] at ha
    exact ⟨sameShape_self hR b ht.1 ha.1, sameShape_selfL hR bs ht.2 ha.2⟩
end

mutual
theorem allVals_true : ∀ b, AllVals (fun _ => True) b
  | .frag f => by rw [AllVals]; exact allVals_trueF f
  | .column _ f => by rw [AllVals]; exact allVals_trueF f
  | .table _ | .aliased _ _ | .nil | .nilFrag | .nilColumn | .columnNilFrag _ | .nilQb | .qb _
  | .custom _ => by simp [AllVals]
theorem allVals_trueF : ∀ f, AllValsF (fun _ => True) f
  | .mk raw args frags pre suf => by rw [AllValsF]; exact ⟨fun _ _ => trivial, allVals_trueL frags⟩
theorem allVals_trueL : ∀ bs, AllValsL (fun _ => True) bs
  | [] => by simp [AllValsL]
  | b :: bs => by rw [AllValsL]; exact ⟨allVals_true b, allVals_trueL bs⟩
end

/-- The meaning depends on the log only through the numbering of the marks, and only appends to
it. -/
theorem sem_uniform (L : GoLib) (parse : Str → Option (List Expr)) (bad : Val → Bool) (b : Builder)
    (ht : IsTree b) (l1 l2 : List Val) :
    ∃ δ, (sem L parse bad b l1).2 = l1 ++ δ ∧ (sem L parse bad b l2).2 = l2 ++ δ ∧
      ResR l1.length l2.length (sem L parse bad b l1).1 (sem L parse bad b l2).1 := by
  obtain ⟨hr, δ1, δ2, h1, h2, hp⟩ := sem_rel (R := Eq) (bad1 := bad) (bad2 := bad)
    (fun v1 v2 h => by rw [h]) L parse b b
    (sameShape_self (P := fun _ => True) (fun _ _ => rfl) b ht (allVals_true b)) l1 l2
  exact ⟨δ1, h1, by rw [h2, hp.eq], hr⟩

end Sqlf
