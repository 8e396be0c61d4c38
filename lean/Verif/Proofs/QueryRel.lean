import Verif.Spec.QueryShape
import Verif.Proofs.QueryApi
import Verif.Proofs.SemRel
/-!
# Query builders that differ in argument values have related meanings
-/

namespace Sqlf

open Spec

/-! ## Dependencies -/

mutual
theorem extractB_sameQ {R : Val → Val → Prop} : ∀ (b c : Builder), SameQ R b c → ∀ acc, extractB b acc = extractB c acc
  | .frag (.mk _ _ fs _ _), c, h, acc => by
    cases c <;> simp only [SameQ] at h
    rename_i g
    cases g
    simp only [SameQF] at h
    rw [extractB, extractB]
    exact extractL_sameQ _ _ h.2.2.1 acc
  | .column _ (.mk _ _ fs _ _), c, h, acc => by
    cases c <;> simp only [SameQ] at h
    rename_i g
    cases g
    obtain ⟨rfl, h⟩ := h
    simp only [SameQF] at h
    rw [extractB, extractB, extractL_sameQ _ _ h.2.2.1 acc]
  | .table t, c, h, acc => by
    cases c <;> simp only [SameQ] at h
    subst h; rfl
  | .aliased n a, c, h, acc => by
    cases c <;> simp only [SameQ] at h
    obtain ⟨rfl, rfl⟩ := h; rfl
  | .nil, c, h, acc => by cases c <;> simp only [SameQ] at h; rfl
  | .nilFrag, c, h, acc => by cases c <;> simp only [SameQ] at h; rfl
  | .nilColumn, c, h, acc => by cases c <;> simp only [SameQ] at h; rfl
  | .columnNilFrag _, c, h, acc => by cases c <;> simp only [SameQ] at h; subst h; rfl
  | .nilQb, c, h, acc => by cases c <;> simp only [SameQ] at h; rfl
  | .qb _, c, h, acc => by cases c <;> simp only [SameQ] at h; subst h; rfl
  | .custom _, c, h, acc => by cases c <;> simp only [SameQ] at h; rfl
theorem extractL_sameQ {R : Val → Val → Prop} : ∀ (bs cs : List Builder), SameQL R bs cs →
    ∀ acc, extractL bs acc = extractL cs acc
  | [], [], _, acc => rfl
  | [], _ :: _, h, _ => by simp [SameQL] at h
  | _ :: _, [], h, _ => by simp [SameQL] at h
  | b :: bs, c :: cs, h, acc => by
    rw [SameQL] at h
    rw [extractL, extractL, extractB_sameQ b c h.1 acc]
    cases extractB c acc with
    | none => rfl
    | some acc => exact extractL_sameQ bs cs h.2 acc
end

theorem sameQL_pointwise {R : Val → Val → Prop} {bs cs : List Builder} :
    SameQL R bs cs ↔ Pointwise (SameQ R) bs cs := by
  constructor
  · intro h
    induction bs generalizing cs with
    | nil => cases cs with
      | nil => exact .nil
      | cons c cs => simp [SameQL] at h
    | cons b bs ih => cases cs with
      | nil => simp [SameQL] at h
      | cons c cs => rw [SameQL] at h; exact .cons h.1 (ih h.2)
  · intro h
    induction h with
    | nil => simp [SameQL]
    | cons h _ ih => rw [SameQL]; exact ⟨h, ih⟩

theorem Spec.Pointwise.map {R : α → β → Prop} {S : γ → δ → Prop} {f : α → γ} {g : β → δ} {l : List α} {m : List β}
    (h : Pointwise R l m) (hf : ∀ a b, R a b → S (f a) (g b)) : Pointwise S (l.map f) (m.map g) := by
  induction h with
  | nil => exact .nil
  | cons h _ ih => exact .cons (hf _ _ h) ih

theorem Spec.Pointwise.filter {R : α → β → Prop} {p : α → Bool} {q : β → Bool} {l : List α} {m : List β}
    (h : Pointwise R l m) (hf : ∀ a b, R a b → p a = q b) : Pointwise R (l.filter p) (m.filter q) := by
  induction h with
  | nil => exact .nil
  | @cons a b _ _ h _ ih =>
    by_cases hp : p a = true
    · rw [List.filter_cons_of_pos hp, List.filter_cons_of_pos (by rw [← hf _ _ h]; exact hp)]
      exact .cons h ih
    · rw [List.filter_cons_of_neg hp, List.filter_cons_of_neg (by rw [← hf _ _ h]; exact hp)]
      exact ih

theorem Spec.Pointwise.filterMap {R : α → β → Prop} {S : γ → δ → Prop} {f : α → Option γ} {g : β → Option δ}
    {l : List α} {m : List β} (h : Pointwise R l m)
    (hf : ∀ a b, R a b → (f a = none ∧ g b = none) ∨ ∃ x y, f a = some x ∧ g b = some y ∧ S x y) :
    Pointwise S (l.filterMap f) (m.filterMap g) := by
  induction h with
  | nil => exact .nil
  | cons h _ ih =>
    rw [List.filterMap_cons, List.filterMap_cons]
    rcases hf _ _ h with ⟨h1, h2⟩ | ⟨x, y, h1, h2, h3⟩
    · rw [h1, h2]; exact ih
    · rw [h1, h2]; exact .cons h3 ih

theorem Spec.Pointwise.reverse {R : α → β → Prop} {l : List α} {m : List β} (h : Pointwise R l m) :
    Pointwise R l.reverse m.reverse := by
  induction h with
  | nil => exact .nil
  | cons h _ ih => rw [List.reverse_cons, List.reverse_cons]; exact ih.append (.cons h .nil)

theorem Spec.Pointwise.find {R : α → β → Prop} {p : α → Bool} {q : β → Bool} {l : List α} {m : List β}
    (h : Pointwise R l m) (hf : ∀ a b, R a b → p a = q b) :
    (l.find? p = none ∧ m.find? q = none) ∨ ∃ x y, l.find? p = some x ∧ m.find? q = some y ∧ R x y := by
  induction h with
  | nil => exact .inl ⟨rfl, rfl⟩
  | @cons a b _ _ h _ ih =>
    by_cases hp : p a = true
    · exact .inr ⟨a, b, by rw [List.find?_cons_of_pos hp], by rw [List.find?_cons_of_pos (by rw [← hf _ _ h]; exact hp)], h⟩
    · rw [List.find?_cons_of_neg hp, List.find?_cons_of_neg (by rw [← hf _ _ h]; exact hp)]
      exact ih

theorem foldOut_pointwise {R : β → γ → Prop} {f : α → β → Out α} {g : α → γ → Out α} {l : List β} {m : List γ}
    (h : Pointwise R l m) (hf : ∀ a x y, R x y → f a x = g a y) (a : α) : foldOut f a l = foldOut g a m := by
  induction h generalizing a with
  | nil => rfl
  | cons h _ ih =>
    unfold foldOut
    rw [hf a _ _ h]
    cases g a _ with
    | ok a => exact ih a
    | _ => rfl

theorem extractTables_sameQ {R : Val → Val → Prop} {bs cs : List Builder} (h : Pointwise (SameQ R) bs cs) :
    extractTables bs = extractTables cs := by
  unfold extractTables
  rw [extractL_sameQ bs cs (sameQL_pointwise.2 h)]

section
variable {R : Val → Val → Prop} {b b' : QB} (h : SameQB R b b')
include h

theorem SameQB.cell (ptr : Nat) : SameRow R (b.cell ptr) (b'.cell ptr) := by
  unfold QB.cell
  rw [List.getD_eq_getElem?_getD, List.getD_eq_getElem?_getD]
  rcases h.cells.get ptr with ⟨h1, h2⟩ | ⟨x, y, h1, h2, h3⟩
  · rw [h1, h2]; exact ⟨rfl, rfl, by simp [rowBuilder, SameQ]⟩
  · rw [h1, h2]; exact h3

theorem SameQB.tableList : Pointwise (SameRow R) b.tableList b'.tableList := by
  unfold QB.tableList
  rw [h.tables]
  exact (Spec.Pointwise.refl (R := Eq) fun _ _ => rfl).map fun a c e => by subst e; exact SameQB.cell h a

theorem SameQB.cteGet (name : Str) : (b.cteGet name = none ∧ b'.cteGet name = none) ∨
    ∃ x y, b.cteGet name = some x ∧ b'.cteGet name = some y ∧ SameCte R x y :=
  h.ctes.reverse.find fun a c hac => by rw [hac.1]

theorem SameQB.depFuel : b.depFuel = b'.depFuel := by
  unfold QB.depFuel
  rw [h.tablesDict, h.ctes.length]

theorem SameQB.depsFromTable (n : Nat) : b.depsFromTable n = b'.depsFromTable n := by
  induction n with
  | zero => rfl
  | succ n ih =>
    funext dep t
    unfold QB.depsFromTable
    unfold QB.dictGet
    rw [h.tablesDict]
    cases (b'.tablesDict.find? fun p => p.1 = t).map (·.2) with
    | none => rfl
    | some ptr =>
      dsimp only
      obtain ⟨h1, -, h3⟩ := SameQB.cell h ptr
      rw [h1, ih]
      unfold rowBuilder at h3
      cases hf : (b.cell ptr).fragment with
      | none =>
        rw [hf] at h3
        cases hg : (b'.cell ptr).fragment with
        | none => rfl
        | some g => rw [hg] at h3; simp [SameQ] at h3
      | some f =>
        rw [hf] at h3
        cases hg : (b'.cell ptr).fragment with
        | none => rw [hg] at h3; simp [SameQ] at h3
        | some g =>
          rw [hg] at h3
          dsimp only
          rw [extractTables_sameQ (.cons h3 .nil)]

theorem SameQB.depsFromCte (n : Nat) : ∀ deps c c', SameCte R c c' → b.depsFromCte n deps c = b'.depsFromCte n deps c' := by
  induction n with
  | zero => intros; rfl
  | succ n ih =>
    intro deps c c' hc
    unfold QB.depsFromCte
    rw [hc.1, hc.2.1]
    split
    · rfl
    · refine foldOut_pointwise ?_ ih _
      exact (Spec.Pointwise.refl (R := Eq) fun _ _ => rfl).filterMap fun a c e => by subst e; exact SameQB.cteGet h a

theorem SameQB.depRoots : Pointwise (SameQ R) b.depRoots b'.depRoots := by
  have hf : ∀ {f g : Fragment}, SameQF R f g → SameQ R (.frag f) (.frag g) := fun h => by rw [SameQ]; exact h
  unfold QB.depRoots
  exact Spec.Pointwise.append (.cons (hf h.selects) (.cons (hf h.touches) (.cons (hf h.conditions) (.cons (hf h.groupbys) .nil))))
    (h.orders.map fun _ _ h => h.2)

theorem SameQB.deps : b.collectDependencies = b'.collectDependencies := by
  unfold QB.collectDependencies
  rw [extractTables_sameQ (SameQB.depRoots h), SameQB.depsFromTable h, SameQB.depFuel h]
  have ht := SameQB.tableList h
  have hm : ∀ deps, b.markCtes deps b.tableList = b'.markCtes deps b'.tableList := by
    intro deps
    unfold QB.markCtes
    refine foldOut_pointwise ht ?_ _
    intro deps x y hxy
    rw [h.distinct, hxy.1, hxy.2.1]
    split
    · rfl
    · rcases SameQB.cteGet h y.names.name with ⟨h1, h2⟩ | ⟨c, c', h1, h2, h3⟩
      · rw [h1, h2]
      · rw [h1, h2]
        dsimp only
        rw [SameQB.depFuel h]
        exact SameQB.depsFromCte h _ _ _ _ h3
  cases extractTables b'.depRoots with
  | ok tables =>
    dsimp only
    cases hx : b.tableList with
    | nil =>
      rw [hx] at ht
      cases hy : b'.tableList with
      | nil => rfl
      | cons => rw [hy] at ht; cases ht
    | cons m ms =>
      rw [hx] at ht
      cases hy : b'.tableList with
      | nil => rw [hy] at ht; cases ht
      | cons m' ms' =>
        rw [hy] at ht
        cases ht with
        | cons h1 h2 =>
          dsimp only
          rw [h1.1]
          cases foldOut (b'.depsFromTable b'.depFuel) [m'.names] tables with
          | ok deps =>
            dsimp only
            rw [← hx, ← hy]; exact hm deps
          | _ => rfl
  | _ => rfl

end

/-! ## Shifting the marks of a query -/

theorem joinDocs_shift (k : Nat) (sep : Str) (ds : List Doc) :
    joinDocs sep (ds.map (shiftDoc k)) = shiftDoc k (joinDocs sep ds) := by
  induction ds with
  | nil => rfl
  | cons d ds ih =>
    cases ds with
    | nil => rfl
    | cons e es =>
      rw [List.map_cons, List.map_cons, joinDocs, joinDocs, shiftDoc_append, shiftDoc_append, shiftDoc_ofStr, ← ih]
      rfl

theorem filter_shift (k : Nat) (ds : List Doc) :
    (ds.map (shiftDoc k)).filter (· ≠ []) = (ds.filter (· ≠ [])).map (shiftDoc k) := by
  rw [List.filter_map]
  congr 1
  apply List.filter_congr
  intro d _
  simp [shiftDoc_eq_nil]

theorem listedDoc_shift (k : Nat) (sep : Str) (ds : List Doc) :
    listedDoc sep (ds.map (shiftDoc k)) = shiftDoc k (listedDoc sep ds) := by
  unfold listedDoc
  rw [filter_shift, joinDocs_shift, trimDoc_shift]

theorem clauseDocs_shift (k : Nat) (kw : Str) (d : Doc) :
    clauseDocs kw (shiftDoc k d) = (clauseDocs kw d).map (shiftDoc k) := by
  unfold clauseDocs
  simp only [shiftDoc_eq_nil]
  split
  · rfl
  · simp [shiftDoc_append, shiftDoc_ofStr]

theorem unionDoc_shift (k : Nat) (us : List Doc) : unionDoc (us.map (shiftDoc k)) = shiftDoc k (unionDoc us) := by
  unfold unionDoc
  rw [filter_shift, joinDocs_shift]
  simp only [shiftDoc_append, shiftDoc_ofStr]

def shiftParts (k : Nat) (p : DocParts) : DocParts where
  ctes := p.ctes.map fun c => (c.1, shiftDoc k c.2)
  distinct := p.distinct
  select := p.select.map (shiftDoc k)
  touches := p.touches.map (shiftDoc k)
  tables := p.tables.map (shiftDoc k)
  where_ := p.where_.map (shiftDoc k)
  groupBy := p.groupBy.map (shiftDoc k)
  orderBy := p.orderBy.map (shiftDoc k)
  limit := p.limit
  offset := p.offset
  unions := p.unions.map fun us => us.map (shiftDoc k)

theorem ctes_shift (k : Nat) (cs : List (Str × Doc)) :
    ((cs.map fun c => (c.1, shiftDoc k c.2)).filter (·.2 ≠ [])).map cteDoc =
      ((cs.filter (·.2 ≠ [])).map cteDoc).map (shiftDoc k) := by
  induction cs with
  | nil => rfl
  | cons c cs ih =>
    rw [List.map_cons]
    by_cases h : c.2 = []
    · rw [List.filter_cons_of_neg (by simp [h, shiftDoc_eq_nil]), List.filter_cons_of_neg (by simp [h]), ih]
    · rw [List.filter_cons_of_pos (by simp [h, shiftDoc_eq_nil]), List.filter_cons_of_pos (by simp [h]),
        List.map_cons, List.map_cons, List.map_cons, ih]
      simp [cteDoc, shiftDoc_append, shiftDoc_ofStr]

theorem selectDoc_shift (k : Nat) (p : DocParts) : (shiftParts k p).selectDoc = shiftDoc k p.selectDoc := by
  unfold DocParts.selectDoc shiftParts
  simp only [listedDoc_shift, shiftDoc_eq_nil, shiftDoc_append, shiftDoc_ofStr]
  congr 1
  split
  · rfl
  · simp only [shiftDoc_append, shiftDoc_ofStr]

theorem clauses_shift (k : Nat) (p : DocParts) : (shiftParts k p).clauses = p.clauses.map (shiftDoc k) := by
  unfold DocParts.clauses
  rw [selectDoc_shift]
  unfold shiftParts
  simp only [ctes_shift, joinDocs_shift, listedDoc_shift, clauseDocs_shift, List.map_append, List.map_cons, List.map_nil,
    shiftDoc_append, shiftDoc_ofStr]
  congr 1
  · congr 1
    split
    · simp [shiftDoc_append, shiftDoc_ofStr]
    · rfl
  · split
    · simp [shiftDoc_append, shiftDoc_ofStr]
    · rfl

theorem doc_shift (k : Nat) (p : DocParts) : (shiftParts k p).doc = shiftDoc k p.doc := by
  unfold DocParts.doc
  rw [clauses_shift, joinDocs_shift, trimDoc_shift]
  show (match p.unions.map fun us => us.map (shiftDoc k) with | none => _ | some us => _) = _
  cases p.unions with
  | none => rfl
  | some us =>
    dsimp only [Option.map]
    rw [unionDoc_shift, ← trimDoc_shift k (_ ++ _), shiftDoc_append, shiftDoc_append, shiftDoc_ofStr]

/-! ## Related meanings with any result -/

def ResOf (Q : α → β → Prop) : Res α → Res β → Prop
  | .ok a, .ok b => Q a b
  | .invalidIndex, .invalidIndex => True
  | .error, .error => True
  | .panic, .panic => True
  | _, _ => False

def SemAt (R : Val → Val → Prop) (l1 l2 : List Val) (Q : α → β → Prop) (f1 : SemOf α) (f2 : SemOf β) : Prop :=
  ∀ m1 m2, LogR R l1 l2 m1 m2 → ResOf Q (f1 m1).1 (f2 m2).1 ∧ LogR R l1 l2 (f1 m1).2 (f2 m2).2

def DocsR (k1 k2 : Nat) (ds1 ds2 : List Doc) : Prop := ∃ es : List Doc, ds1 = es.map (shiftDoc k1) ∧ ds2 = es.map (shiftDoc k2)

section
variable {R : Val → Val → Prop} {l1 l2 : List Val}

theorem semAt_pure {Q : α → β → Prop} {a : α} {b : β} (h : Q a b) : SemAt R l1 l2 Q (SemOf.pure a) (SemOf.pure b) :=
  fun _ _ hm => ⟨h, hm⟩

theorem SemAt.bind {Q : α → β → Prop} {P : γ → δ → Prop} {f1 : SemOf α} {f2 : SemOf β} {g1 : α → SemOf γ}
    {g2 : β → SemOf δ} (h : SemAt R l1 l2 Q f1 f2) (hg : ∀ a b, Q a b → SemAt R l1 l2 P (g1 a) (g2 b)) :
    SemAt R l1 l2 P (f1.bind g1) (f2.bind g2) := by
  intro m1 m2 hm
  have h1 := h m1 m2 hm
  unfold SemOf.bind
  rcases e1 : f1 m1 with ⟨r1, t1⟩
  rcases e2 : f2 m2 with ⟨r2, t2⟩
  rw [e1, e2] at h1
  obtain ⟨hr, ht⟩ := h1
  cases r1 <;> cases r2 <;> try (exact hr.elim)
  · exact hg _ _ hr _ _ ht
  · exact ⟨trivial, ht⟩
  · exact ⟨trivial, ht⟩
  · exact ⟨trivial, ht⟩

theorem resOf_docR {k1 k2 : Nat} {r1 r2 : Res Doc} : ResOf (DocR k1 k2) r1 r2 ↔ ResR k1 k2 r1 r2 := by
  cases r1 <;> cases r2 <;> exact Iff.rfl

theorem SemR.at {f1 f2 : Sem} (h : SemR R f1 f2) : SemAt R l1 l2 (DocR l1.length l2.length) f1 f2 := by
  intro m1 m2 hm
  obtain ⟨hr, hl⟩ := h m1 m2
  obtain ⟨n, h1, h2⟩ := hm.len
  rw [h1, h2] at hr
  exact ⟨resOf_docR.2 hr.up, hm.trans hl⟩

theorem semR_of_at {f1 f2 : Sem} (h : ∀ l1 l2, SemAt R l1 l2 (DocR l1.length l2.length) f1 f2) : SemR R f1 f2 := by
  intro l1 l2
  obtain ⟨hr, hl⟩ := h l1 l2 l1 l2 (LogR.refl R l1 l2)
  exact ⟨resOf_docR.1 hr, hl⟩

theorem DocsR.cons {k1 k2 : Nat} {d1 d2 : Doc} {ds1 ds2 : List Doc} (h : DocR k1 k2 d1 d2) (hs : DocsR k1 k2 ds1 ds2) :
    DocsR k1 k2 (d1 :: ds1) (d2 :: ds2) := by
  obtain ⟨e, rfl, rfl⟩ := h
  obtain ⟨es, rfl, rfl⟩ := hs
  exact ⟨e :: es, rfl, rfl⟩

theorem inTurn_rel {fs gs : List Sem} (h : Pointwise (SemR R) fs gs) :
    SemAt R l1 l2 (DocsR l1.length l2.length) (inTurn fs) (inTurn gs) := by
  induction h with
  | nil => exact semAt_pure ⟨[], rfl, rfl⟩
  | cons h _ ih =>
    exact h.at.bind fun d1 d2 hd => ih.bind fun ds1 ds2 hds => semAt_pure (DocsR.cons hd hds)

theorem inList_rel {fs gs : List Sem} (h : Pointwise (SemR R) fs gs) :
    SemAt R l1 l2 (DocsR l1.length l2.length) (inList fs) (inList gs) := by
  induction h with
  | nil => exact semAt_pure ⟨[], rfl, rfl⟩
  | @cons f g fs gs h hs ih =>
    intro m1 m2 hm
    have h1 := h.at (l1 := l1) (l2 := l2) m1 m2 hm
    unfold inList
    rcases e1 : f m1 with ⟨r1, t1⟩
    rcases e2 : g m2 with ⟨r2, t2⟩
    rw [e1, e2] at h1
    obtain ⟨hr, ht⟩ := h1
    cases r1 <;> cases r2 <;> try (exact hr.elim)
    · exact ih.bind (fun ds1 ds2 hds => semAt_pure (DocsR.cons hr hds)) _ _ ht
    · have : fs = [] ↔ gs = [] := by
        cases hs <;> simp
      dsimp only
      by_cases hf : fs = []
      · rw [if_pos hf, if_pos (this.1 hf)]
        exact ⟨⟨[], rfl, rfl⟩, ht⟩
      · rw [if_neg hf, if_neg (fun hc => hf (this.2 hc))]
        exact ⟨trivial, ht⟩
    · exact ⟨trivial, ht⟩
    · exact ⟨trivial, ht⟩

end

/-- Requests whose builders have related meanings. -/
structure RequestR (R : Val → Val → Prop) (c1 c2 : Builder → Sem) (q q' : Request) : Prop where
  names : q.ctes.map (·.name) = q'.ctes.map (·.name)
  ctes : Pointwise (SemR R) (q.ctes.map fun c => c1 c.builder) (q'.ctes.map fun c => c2 c.builder)
  rows : Pointwise (SemR R) (q.rows.map fun r => c1 (rowBuilder r)) (q'.rows.map fun r => c2 (rowBuilder r))
  where_ : Pointwise (SemR R) (q.where_.map c1) (q'.where_.map c2)
  groupBy : Pointwise (SemR R) (q.groupBy.map c1) (q'.groupBy.map c2)
  orderBy : Pointwise (SemR R) (q.orderBy.map c1) (q'.orderBy.map c2)
  select : Pointwise (SemR R) (q.select.map c1) (q'.select.map c2)
  touches : Pointwise (SemR R) (q.touches.map c1) (q'.touches.map c2)
  unions : Pointwise (SemR R) (q.unions.map c1) (q'.unions.map c2)
  distinct : q.distinct = q'.distinct
  limit : q.limit = q'.limit
  offset : q.offset = q'.offset

theorem zip_shift (k : Nat) (ns : List Str) (ds : List Doc) :
    ns.zip (ds.map (shiftDoc k)) = (ns.zip ds).map fun c => (c.1, shiftDoc k c.2) := by
  induction ns generalizing ds with
  | nil => rfl
  | cons n ns ih =>
    cases ds with
    | nil => rfl
    | cons d ds => simp [ih]

theorem RequestR.sem {R : Val → Val → Prop} {c1 c2 : Builder → Sem} {q q' : Request} (h : RequestR R c1 c2 q q') :
    SemR R (q.sem c1) (q'.sem c2) := by
  refine semR_of_at fun l1 l2 => ?_
  unfold Request.sem
  refine (inTurn_rel h.ctes).bind fun qs1 qs2 hqs => ?_
  refine (inTurn_rel h.rows).bind fun ts1 ts2 hts => ?_
  refine (inList_rel h.where_).bind fun ws1 ws2 hws => ?_
  refine (inList_rel h.groupBy).bind fun gs1 gs2 hgs => ?_
  refine (inList_rel h.orderBy).bind fun os1 os2 hos => ?_
  refine (inList_rel h.select).bind fun ss1 ss2 hss => ?_
  refine (inList_rel h.touches).bind fun xs1 xs2 hxs => ?_
  obtain ⟨ss, rfl, rfl⟩ := hss
  rw [listedDoc_shift, listedDoc_shift]
  simp only [shiftDoc_eq_nil]
  split
  · exact fun _ _ hm => ⟨trivial, hm⟩
  · refine (inTurn_rel h.unions).bind fun us1 us2 hus => ?_
    refine semAt_pure ?_
    obtain ⟨qs, rfl, rfl⟩ := hqs
    obtain ⟨ts, rfl, rfl⟩ := hts
    obtain ⟨ws, rfl, rfl⟩ := hws
    obtain ⟨gs, rfl, rfl⟩ := hgs
    obtain ⟨os, rfl, rfl⟩ := hos
    obtain ⟨xs, rfl, rfl⟩ := hxs
    obtain ⟨us, rfl, rfl⟩ := hus
    have hun : q.unions = [] ↔ q'.unions = [] := by
      have := h.unions.length
      rw [List.length_map, List.length_map] at this
      rw [← List.length_eq_zero_iff, ← List.length_eq_zero_iff, this]
    refine ⟨DocParts.doc { ctes := (q.ctes.map (·.name)).zip qs, distinct := q.distinct, select := ss, touches := xs, tables := ts, where_ := ws, groupBy := gs, orderBy := os, limit := q.limit, offset := q.offset, unions := if q.unions = [] then none else some us }, ?_, ?_⟩
    · rw [← doc_shift]
      unfold shiftParts
      dsimp only
      rw [zip_shift]
      split <;> rfl
    · rw [← doc_shift]
      unfold shiftParts
      dsimp only
      rw [zip_shift, h.names, h.distinct, h.limit, h.offset]
      by_cases hu : q.unions = []
      · rw [if_pos hu, if_pos (hun.1 hu)]; rfl
      · rw [if_neg hu, if_neg (fun hc => hu (hun.2 hc))]; rfl

/-! ## Query builders -/

theorem orderBuilders_same {R : Val → Val → Prop} {os os' : List OrderItem} (h : Pointwise (SameOrder R) os os')
    (distinct : Bool) (i : Nat) : Pointwise (SameQ R) (orderBuilders distinct i os) (orderBuilders distinct i os') := by
  induction h generalizing i with
  | nil => exact .nil
  | cons h _ ih =>
    unfold orderBuilders
    rw [h.1]
    refine Spec.Pointwise.append ?_ (ih (i + 1))
    split
    · exact .nil
    · split
      · exact .cons (by simp [SameQ, SameQF, SameQL, Fragment.F]; exact .nil) .nil
      · exact .cons (by simp [SameQ, SameQF, SameQL, Fragment.Ff, h.2]; exact .nil) .nil

theorem orderColumns_same {R : Val → Val → Prop} {os os' : List OrderItem} (h : Pointwise (SameOrder R) os os')
    (distinct : Bool) (i : Nat) : Pointwise (SameQ R) (orderColumns distinct i os) (orderColumns distinct i os') := by
  induction h generalizing i with
  | nil => exact .nil
  | cons h _ ih =>
    unfold orderColumns
    rw [h.1]
    refine Spec.Pointwise.append ?_ (ih (i + 1))
    split
    · exact .nil
    · split
      · exact .cons (by simp [SameQ, SameQF, SameQL, Fragment.Ff, h.2]; exact .nil) .nil
      · exact .nil

theorem sameQF_frags {R : Val → Val → Prop} {f g : Fragment} (h : SameQF R f g) : Pointwise (SameQ R) f.frags g.frags := by
  cases f; cases g
  rw [SameQF] at h
  exact sameQL_pointwise.1 h.2.2.1

section
variable {R : Val → Val → Prop}

theorem requestR_of {c1 c2 : Builder → Sem} (hc : ∀ a b, SameQ R a b → SemR R (c1 a) (c2 b)) {b b' : QB}
    (h : SameQB R b b') (deps : List TableAliased) : RequestR R c1 c2 (requestOf b deps) (requestOf b' deps) := by
  have hct : Pointwise (SameCte R) (requestOf b deps).ctes (requestOf b' deps).ctes :=
    h.ctes.filter fun a c hac => by rw [hac.1]
  have hrow : Pointwise (SameRow R) (requestOf b deps).rows (requestOf b' deps).rows :=
    (SameQB.tableList h).filter fun a c hac => by rw [h.distinct, hac.1, hac.2.1]
  refine ⟨?_, hct.map fun a c h => hc _ _ h.2.2, hrow.map fun a c h => hc _ _ h.2.2, ?_, ?_, ?_, ?_, ?_, ?_,
    h.distinct, h.limit, h.offset⟩
  · exact Spec.Pointwise.eq (hct.map fun a c h => h.1)
  · exact (sameQF_frags h.conditions).map hc
  · exact (sameQF_frags h.groupbys).map hc
  · show Pointwise _ ((orderBuilders b.distinct 1 b.orders).map c1) ((orderBuilders b'.distinct 1 b'.orders).map c2)
    rw [h.distinct]
    exact (orderBuilders_same h.orders _ _).map hc
  · exact (sameQF_frags h.selects).map hc
  · show Pointwise _ ((b.touches.frags ++ orderColumns b.distinct 1 b.orders).map c1)
      ((b'.touches.frags ++ orderColumns b'.distinct 1 b'.orders).map c2)
    rw [h.distinct]
    exact ((sameQF_frags h.touches).append (orderColumns_same h.orders _ _)).map hc
  · exact (sameQL_pointwise.1 h.unions).map hc

theorem semR_error : SemR R (SemOf.fail .error) (SemOf.fail .error) := fun _ _ => ⟨trivial, LogR.refl ..⟩

theorem qbSem_rel {c1 c2 : Builder → Sem} (hc : ∀ a b, SameQ R a b → SemR R (c1 a) (c2 b)) {b b' : QB}
    (h : SameQB R b b') : SemR R (qbSem c1 b) (qbSem c2 b') := by
  unfold qbSem
  rw [h.errors, SameQB.deps h]
  split
  · exact semR_error
  · split
    · exact (requestR_of hc h _).sem
    · exact semR_panic
    · exact semR_error

variable {bad1 bad2 : Val → Bool} (hbad : ∀ v1 v2, R v1 v2 → bad1 v1 = bad2 v2)
include hbad

mutual
theorem semQ_rel (L : GoLib) (parse : Str → Option (List Expr)) {e1 e2 : Nat → Sem} (he : ∀ r, SemR R (e1 r) (e2 r)) :
    ∀ b c, SameQ R b c → SemR R (semQ L parse bad1 e1 b) (semQ L parse bad2 e2 c)
  | .frag f, c, h => by
    cases c <;> simp only [SameQ] at h
    rw [semQ, semQ]; exact semQF_rel L parse he _ _ h
  | .column _ f, c, h => by
    cases c <;> simp only [SameQ] at h
    rw [semQ, semQ]; exact semQF_rel L parse he _ _ h.2
  | .table t, c, h => by
    cases c <;> simp only [SameQ] at h
    subst h; rw [semQ, semQ]; exact semR_text _
  | .aliased n a, c, h => by
    cases c <;> simp only [SameQ] at h
    obtain ⟨rfl, rfl⟩ := h; rw [semQ, semQ]; exact semR_text _
  | .nil, c, h => by
    cases c <;> simp only [SameQ] at h
    unfold semQ; exact semR_panic
  | .nilFrag, c, h => by
    cases c <;> simp only [SameQ] at h
    unfold semQ; exact semR_text []
  | .nilColumn, c, h => by
    cases c <;> simp only [SameQ] at h
    unfold semQ; exact semR_panic
  | .columnNilFrag _, c, h => by
    cases c <;> simp only [SameQ] at h
    unfold semQ; exact semR_text []
  | .nilQb, c, h => by
    cases c <;> simp only [SameQ] at h
    unfold semQ; exact semR_text []
  | .qb r, c, h => by
    cases c <;> simp only [SameQ] at h
    subst h; rw [semQ, semQ]; exact he r
  | .custom _, c, h => by
    cases c <;> simp only [SameQ] at h
    unfold semQ; exact semR_panic
theorem semQF_rel (L : GoLib) (parse : Str → Option (List Expr)) {e1 e2 : Nat → Sem} (he : ∀ r, SemR R (e1 r) (e2 r)) :
    ∀ f g, SameQF R f g → SemR R (semQF L parse bad1 e1 f) (semQF L parse bad2 e2 g)
  | .mk raw args frags pre suf, .mk raw' args' frags' pre' suf', h => by
    rw [SameQF] at h
    obtain ⟨rfl, ha, hf, rfl, rfl⟩ := h
    rw [semQF, semQF]
    exact fragmentSem_rel hbad L parse raw ha (semQL_rel L parse he _ _ hf) pre suf
theorem semQL_rel (L : GoLib) (parse : Str → Option (List Expr)) {e1 e2 : Nat → Sem} (he : ∀ r, SemR R (e1 r) (e2 r)) :
    ∀ bs cs, SameQL R bs cs → Pointwise (SemR R) (semQL L parse bad1 e1 bs) (semQL L parse bad2 e2 cs)
  | [], [], _ => by rw [semQL, semQL]; exact .nil
  | [], _ :: _, h => by simp [SameQL] at h
  | _ :: _, [], h => by simp [SameQL] at h
  | b :: bs, c :: cs, h => by
    rw [SameQL] at h
    rw [semQL, semQL]
    exact .cons (semQ_rel L parse he b c h.1) (semQL_rel L parse he bs cs h.2)
end

theorem heapSem_rel (L : GoLib) (parse : Str → Option (List Expr)) {heap heap' : List QB}
    (h : Pointwise (SameQB R) heap heap') (depth r : Nat) :
    SemR R (heapSem L parse bad1 heap depth r) (heapSem L parse bad2 heap' depth r) := by
  induction depth generalizing r with
  | zero => exact semR_error
  | succ d ih =>
    unfold heapSem
    rcases h.get r with ⟨h1, h2⟩ | ⟨b, b', h1, h2, h3⟩
    · rw [h1, h2]; exact semR_panic
    · rw [h1, h2]; exact qbSem_rel (semQ_rel hbad L parse ih) h3

end

end Sqlf
