import Verif.Spec.QueryTidy
import Verif.Proofs.Tidy
import Verif.Proofs.QueryRel
import Verif.Proofs.Meaning
/-!
# In tidy query builders marks and committed values correspond one to one
-/

namespace Sqlf

open Spec

/-! ## The marks of a query -/

def bindsL (ds : List Doc) : List Nat := ds.flatMap binds

theorem bindsL_cons (d : Doc) (ds : List Doc) : bindsL (d :: ds) = binds d ++ bindsL ds := rfl

theorem bindsL_append (ds es : List Doc) : bindsL (ds ++ es) = bindsL ds ++ bindsL es := by
  simp [bindsL]

theorem binds_joinDocs (sep : Str) (ds : List Doc) : binds (joinDocs sep ds) = bindsL ds := by
  induction ds with
  | nil => rfl
  | cons d ds ih =>
    cases ds with
    | nil => simp [joinDocs, bindsL]
    | cons e es =>
      rw [joinDocs, binds_append, binds_append, binds_ofStr, ih, bindsL_cons d, List.append_nil]

theorem bindsL_filter (ds : List Doc) : bindsL (ds.filter (· ≠ [])) = bindsL ds := by
  induction ds with
  | nil => rfl
  | cons d ds ih =>
    by_cases h : d = []
    · subst h
      rw [List.filter_cons_of_neg (by simp), ih]
      rfl
    · rw [List.filter_cons_of_pos (by simp [h]), bindsL_cons, bindsL_cons, ih]

theorem binds_listedDoc (sep : Str) (ds : List Doc) : binds (listedDoc sep ds) = bindsL ds := by
  unfold listedDoc
  rw [binds_trimDoc, binds_joinDocs, bindsL_filter]

theorem bindsL_clauseDocs (kw : Str) (d : Doc) : bindsL (clauseDocs kw d) = binds d := by
  unfold clauseDocs
  split
  · rename_i h; rw [h]; rfl
  · simp [bindsL, binds_append, binds_ofStr]

theorem bindsL_ctes (cs : List (Str × Doc)) :
    bindsL ((cs.filter (·.2 ≠ [])).map cteDoc) = bindsL (cs.map (·.2)) := by
  induction cs with
  | nil => rfl
  | cons c cs ih =>
    by_cases h : c.2 = []
    · rw [List.filter_cons_of_neg (by simp [h]), ih, List.map_cons, bindsL_cons, h]
      rfl
    · rw [List.filter_cons_of_pos (by simp [h]), List.map_cons, bindsL_cons, ih, List.map_cons, bindsL_cons]
      simp [cteDoc, binds_append, binds_ofStr]

theorem binds_selectDoc (p : DocParts) : binds p.selectDoc = bindsL p.select ++ bindsL p.touches := by
  unfold DocParts.selectDoc
  have : binds (if listedDoc (lit ", ") p.touches = [] then [] else Doc.ofStr (lit ", ") ++ listedDoc (lit ", ") p.touches) =
      bindsL p.touches := by
    rw [← binds_listedDoc (lit ", ") p.touches]
    split
    · rename_i h; rw [h]
    · rw [binds_append, binds_ofStr]; rfl
  rw [binds_append, this, binds_append, binds_append, binds_ofStr, binds_ofStr, binds_listedDoc]
  rfl

/-- The marks of a query in the order of the text. -/
theorem binds_doc (p : DocParts) : binds p.doc =
    bindsL (p.ctes.map (·.2)) ++ (bindsL p.select ++ bindsL p.touches) ++ (bindsL p.tables ++ bindsL p.where_ ++ bindsL p.groupBy ++ bindsL p.orderBy) ++
      bindsL (p.unions.getD []) := by
  have hc : bindsL p.clauses = bindsL (p.ctes.map (·.2)) ++ (bindsL p.select ++ bindsL p.touches) ++
      (bindsL p.tables ++ bindsL p.where_ ++ bindsL p.groupBy ++ bindsL p.orderBy) := by
    unfold DocParts.clauses
    simp only [bindsL_append, bindsL_clauseDocs, binds_joinDocs, binds_listedDoc, bindsL_ctes]
    have h1 : bindsL (if p.limit > 0 then [Doc.ofStr (lit "LIMIT ") ++ Doc.ofStr (itoa p.limit)] else []) = [] := by
      split
      · simp [bindsL, binds_append, binds_ofStr]
      · rfl
    have h2 : bindsL (if p.offset > 0 then [Doc.ofStr (lit "OFFSET ") ++ Doc.ofStr (itoa p.offset)] else []) = [] := by
      split
      · simp [bindsL, binds_append, binds_ofStr]
      · rfl
    rw [h1, h2]
    simp [bindsL_cons, binds_append, binds_ofStr, binds_joinDocs, binds_selectDoc, show bindsL [] = [] from rfl]
  unfold DocParts.doc
  dsimp only
  cases p.unions with
  | none =>
    dsimp only
    rw [binds_trimDoc, binds_joinDocs, hc]
    simp [bindsL]
  | some us =>
    dsimp only
    rw [binds_trimDoc, binds_append, binds_append, binds_trimDoc, binds_joinDocs, hc, binds_ofStr]
    unfold unionDoc
    rw [binds_append, binds_append, binds_ofStr, binds_ofStr, binds_joinDocs, bindsL_filter]
    simp

/-! ## Lists of builders -/

/-- The values committed are exactly the marks of the results. -/
def CleanDocs (E : List Nat → List Nat → Prop) (f : SemOf (List Doc)) : Prop :=
  ∀ log, ∃ δ, (f log).2 = log ++ δ ∧ ∀ ds, (f log).1 = .ok ds → E (bindsL ds) (List.range' log.length δ.length)

def GrowsSem (f : SemOf α) : Prop := ∀ log, ∃ δ, (f log).2 = log ++ δ

theorem CleanDocs.grows {E} {f : SemOf (List Doc)} (h : CleanDocs E f) : GrowsSem f :=
  fun log => let ⟨δ, h1, _⟩ := h log; ⟨δ, h1⟩

theorem CleanSem.grows {E} {f : Sem} (h : CleanSem E f) : GrowsSem f :=
  fun log => let ⟨δ, h1, _⟩ := h log; ⟨δ, h1⟩

theorem GrowsSem.bind {f : SemOf α} {g : α → SemOf β} (hf : GrowsSem f) (hg : ∀ a, GrowsSem (g a)) :
    GrowsSem (f.bind g) := by
  intro log
  obtain ⟨δ, h⟩ := hf log
  unfold SemOf.bind
  rcases e : f log with ⟨r, t⟩
  rw [e] at h
  dsimp only at h
  cases r with
  | ok a =>
    obtain ⟨δ', h'⟩ := hg a t
    exact ⟨δ ++ δ', by dsimp only; rw [h', h, List.append_assoc]⟩
  | _ => exact ⟨δ, h⟩

theorem growsSem_pure (a : α) : GrowsSem (SemOf.pure a) := fun log => ⟨[], by simp [SemOf.pure]⟩

theorem growsSem_fail (r : Res α) : GrowsSem (SemOf.fail r) := fun log => ⟨[], by simp [SemOf.fail]⟩

theorem semBind_ok {f : SemOf α} {g : α → SemOf β} {log log' : List Val} {b : β}
    (h : f.bind g log = (.ok b, log')) : ∃ a l, f log = (.ok a, l) ∧ g a l = (.ok b, log') := by
  unfold SemOf.bind at h
  rcases e : f log with ⟨r, t⟩
  rw [e] at h
  cases r with
  | ok a => exact ⟨a, t, rfl, h⟩
  | _ => cases h

section
variable {E : List Nat → List Nat → Prop} [MarkRel E]

theorem cleanDocs_cons {f : Sem} {g : SemOf (List Doc)} (hf : CleanSem E f) (hg : CleanDocs E g) :
    CleanDocs E (SemOf.bind f fun d => g.bind fun ds => .pure (d :: ds)) := by
  intro log
  obtain ⟨δ, h⟩ := (GrowsSem.bind hf.grows fun d => GrowsSem.bind hg.grows fun ds => growsSem_pure (d :: ds)) log
  refine ⟨δ, h, fun es he => ?_⟩
  obtain ⟨d, l, h1, h2⟩ := semBind_ok (log' := log ++ δ) (Prod.ext he h)
  obtain ⟨ds, l', h3, h4⟩ := semBind_ok h2
  obtain ⟨δ1, h5, h6⟩ := hf log
  obtain ⟨δ2, h7, h8⟩ := hg l
  rw [h1] at h5 h6
  rw [h3] at h7 h8
  dsimp only at h5 h6 h7 h8
  injection h4 with h9 h10
  injection h9 with h9
  subst h9
  have : δ = δ1 ++ δ2 := by
    rw [h10, h5, List.append_assoc] at h7
    exact List.append_cancel_left h7
  subst this
  rw [bindsL_cons]
  refine MarkRel.trans (MarkRel.app (h6 d rfl) (h8 ds rfl)) (MarkRel.of_eq ?_)
  rw [h5, List.length_append, List.length_append, range'_add]

theorem cleanDocs_nil : CleanDocs E (SemOf.pure []) :=
  fun log => ⟨[], by simp [SemOf.pure], fun ds hd => by cases hd; exact MarkRel.of_eq rfl⟩

theorem inTurn_clean {fs : List Sem} (h : ∀ f ∈ fs, CleanSem E f) : CleanDocs E (inTurn fs) := by
  induction fs with
  | nil => exact cleanDocs_nil
  | cons f fs ih => exact cleanDocs_cons (h f (by simp)) (ih fun g hg => h g (by simp [hg]))

theorem inList_clean {fs : List Sem} (h : ∀ f ∈ fs, CleanSem E f ∧ ∀ log, (f log).1 ≠ .invalidIndex) :
    CleanDocs E (inList fs) := by
  induction fs with
  | nil => exact cleanDocs_nil
  | cons f fs ih =>
    have hc := cleanDocs_cons (h f (by simp)).1 (ih fun g hg => h g (by simp [hg]))
    intro log
    have h1 := hc log
    have h2 := (h f (by simp)).2 log
    unfold SemOf.bind at h1
    unfold inList
    rcases e : f log with ⟨r, t⟩
    rw [e] at h1 h2
    cases r with
    | ok d => exact h1
    | invalidIndex => exact absurd rfl h2
    | error => exact h1
    | panic =>
      obtain ⟨δ, h3, -⟩ := h1
      exact ⟨δ, h3, fun ds hd => by cases hd⟩

theorem inTurn_length {fs : List Sem} {log log' : List Val} {ds : List Doc} (h : inTurn fs log = (.ok ds, log')) :
    ds.length = fs.length := by
  induction fs generalizing log ds with
  | nil => cases h; rfl
  | cons f fs ih =>
    obtain ⟨d, l, -, h2⟩ := semBind_ok h
    obtain ⟨es, l', h3, h4⟩ := semBind_ok h2
    cases h4
    simp [ih h3]

theorem inTurn_nothing {fs : List Sem} (h : ∀ f ∈ fs, CommitsNothing f) {log log' : List Val} {ds : List Doc}
    (hr : inTurn fs log = (.ok ds, log')) : log' = log := by
  induction fs generalizing log ds with
  | nil => cases hr; rfl
  | cons f fs ih =>
    obtain ⟨d, l, h1, h2⟩ := semBind_ok hr
    obtain ⟨es, l', h3, h4⟩ := semBind_ok h2
    cases h4
    have h5 := h f (by simp) log
    rw [h1] at h5
    rw [ih (fun g hg => h g (by simp [hg])) h3]; exact h5

theorem inList_nothing {fs : List Sem} (h : ∀ f ∈ fs, CommitsNothing f) {log log' : List Val} {ds : List Doc}
    (hr : inList fs log = (.ok ds, log')) : log' = log := by
  induction fs generalizing log ds with
  | nil => cases hr; rfl
  | cons f fs ih =>
    have h5 := h f (by simp) log
    unfold inList at hr
    rcases e : f log with ⟨r, t⟩
    rw [e] at hr h5
    dsimp only at h5
    subst h5
    cases r with
    | ok d =>
      obtain ⟨es, l', h3, h4⟩ := semBind_ok hr
      cases h4
      exact ih (fun g hg => h g (by simp [hg])) h3
    | invalidIndex => exact (congrArg Prod.snd hr).symm
    | error => cases hr
    | panic => cases hr

/-! ## Requests -/

structure CleanParts (E : List Nat → List Nat → Prop) (child : Builder → Sem) (q : Request) : Prop where
  ctes : ∀ c ∈ q.ctes, CleanSem E (child c.builder)
  rows : ∀ r ∈ q.rows, CleanSem E (child (rowBuilder r))
  unions : ∀ u ∈ q.unions, CleanSem E (child u)
  lists : ∀ cs ∈ [q.where_, q.groupBy, q.orderBy, q.select, q.touches], CleanDocs E (inList (cs.map child))

structure CleanRequest (E : List Nat → List Nat → Prop) (child : Builder → Sem) (q : Request) : Prop extends CleanParts E child q where
  order : (∀ c ∈ q.select ++ q.touches, CommitsNothing (child c)) ∨
    (∀ c ∈ q.rows.map rowBuilder ++ q.where_ ++ q.groupBy ++ q.orderBy, CommitsNothing (child c)) ∨
    ∀ a b, E (a ++ b) (b ++ a)

theorem ok_eq {f : SemOf α} {log l : List Val} {a : α} (h : f log = (.ok a, l)) : (f log).1 = .ok a ∧ (f log).2 = l := by
  rw [h]; exact ⟨rfl, rfl⟩

theorem cleanDocs_ok {f : SemOf (List Doc)} (hf : CleanDocs E f) {log l : List Val} {ds : List Doc}
    (h : f log = (.ok ds, l)) : ∃ n, l.length = log.length + n ∧ E (bindsL ds) (List.range' log.length n) := by
  obtain ⟨δ, h1, h2⟩ := hf log
  rw [h] at h1 h2
  exact ⟨δ.length, by dsimp only at h1; rw [h1, List.length_append], h2 ds rfl⟩

/-- Clause by clause: the marks are the values in the order in which they are committed. -/
theorem CleanParts.marks {child : Builder → Sem} {q : Request} (h : CleanParts E child q) {as : List Val} {d : Doc}
    (hrun : q.sem child [] = (.ok d, as)) :
    ∃ p : DocParts, d = p.doc ∧ BuiltParts child q p as ∧ E p.marks (List.range as.length) := by
  have hc : CleanDocs E (inTurn (q.ctes.map fun c => child c.builder)) := inTurn_clean fun f hf => by
    obtain ⟨c, h1, rfl⟩ := List.mem_map.1 hf; exact h.ctes c h1
  have ht : CleanDocs E (inTurn (q.rows.map fun r => child (rowBuilder r))) := inTurn_clean fun f hf => by
    obtain ⟨c, h1, rfl⟩ := List.mem_map.1 hf; exact h.rows c h1
  have hu : CleanDocs E (inTurn (q.unions.map child)) := inTurn_clean fun f hf => by
    obtain ⟨c, h1, rfl⟩ := List.mem_map.1 hf; exact h.unions c h1
  have hw := h.lists q.where_ (by simp)
  have hg := h.lists q.groupBy (by simp)
  have ho := h.lists q.orderBy (by simp)
  have hs := h.lists q.select (by simp)
  have hx := h.lists q.touches (by simp)
  unfold Request.sem at hrun
  obtain ⟨qs, l1, e1, hrun⟩ := semBind_ok hrun
  obtain ⟨ts, l2, e2, hrun⟩ := semBind_ok hrun
  obtain ⟨ws, l3, e3, hrun⟩ := semBind_ok hrun
  obtain ⟨gs, l4, e4, hrun⟩ := semBind_ok hrun
  obtain ⟨os, l5, e5, hrun⟩ := semBind_ok hrun
  obtain ⟨ss, l6, e6, hrun⟩ := semBind_ok hrun
  obtain ⟨xs, l7, e7, hrun⟩ := semBind_ok hrun
  split at hrun
  · cases hrun
  obtain ⟨us, l8, e8, hrun⟩ := semBind_ok hrun
  injection hrun with hd' hlen
  injection hd' with hd'
  obtain ⟨n1, k1, b1⟩ := cleanDocs_ok hc e1
  obtain ⟨n2, k2, b2⟩ := cleanDocs_ok ht e2
  obtain ⟨n3, k3, b3⟩ := cleanDocs_ok hw e3
  obtain ⟨n4, k4, b4⟩ := cleanDocs_ok hg e4
  obtain ⟨n5, k5, b5⟩ := cleanDocs_ok ho e5
  obtain ⟨n6, k6, b6⟩ := cleanDocs_ok hs e6
  obtain ⟨n7, k7, b7⟩ := cleanDocs_ok hx e7
  obtain ⟨n8, k8, b8⟩ := cleanDocs_ok hu e8
  refine ⟨_, hd'.symm, ?_⟩
  unfold BuiltParts DocParts.marks
  dsimp only
  have hct : ((q.ctes.map (·.name)).zip qs).map (·.2) = qs := by
    rw [List.map_snd_zip]
    have := inTurn_length e1
    simp only [List.length_map] at this ⊢
    omega
  have hun : (if q.unions = [] then none else some us).getD [] = us := by
    split
    · rename_i hu
      have := inTurn_length e8
      rw [hu] at this
      exact (List.length_eq_zero_iff.1 (by simpa using this)).symm
    · rfl
  rw [hct, hun]
  subst hlen
  refine ⟨⟨l1, l2, l3, l4, l5, l6, l7, e1, e2, e3, e4, e5, e6, e7, e8⟩, ?_⟩
  have hb : (qs ++ ts ++ ws ++ gs ++ os ++ ss ++ xs ++ us).flatMap binds =
      bindsL qs ++ (bindsL ts ++ bindsL ws ++ bindsL gs ++ bindsL os) ++ (bindsL ss ++ bindsL xs) ++ bindsL us := by
    simp only [List.flatMap_append, bindsL, List.append_assoc]
  have hl : l8.length = n1 + (n2 + n3 + n4 + n5) + (n6 + n7) + n8 := by
    simp only [List.length_nil] at k1
    omega
  rw [hb, List.range_eq_range', hl]
  rw [k1] at b2 k2
  rw [k2] at b3 k3
  rw [k3] at b4 k4
  rw [k4] at b5 k5
  rw [k5] at b6 k6
  rw [k6] at b7 k7
  rw [k7] at b8 k8
  refine MarkRel.trans (MarkRel.app (MarkRel.app (MarkRel.app b1 (MarkRel.app (MarkRel.app (MarkRel.app b2 b3) b4) b5))
    (MarkRel.app b6 b7)) b8) (MarkRel.of_eq ?_)
  simp only [List.length_nil]
  generalize 0 = n
  have hF : List.range' (n + n1) n2 ++ List.range' (n + n1 + n2) n3 ++ List.range' (n + n1 + n2 + n3) n4 ++ List.range' (n + n1 + n2 + n3 + n4) n5
      = List.range' (n + n1) (n2 + n3 + n4 + n5) := by
    rw [range'_add, Nat.add_assoc (n + n1) n2 n3, range'_add, Nat.add_assoc (n + n1), range'_add]
  have hS : List.range' (n + n1 + n2 + n3 + n4 + n5) n6 ++ List.range' (n + n1 + n2 + n3 + n4 + n5 + n6) n7
      = List.range' (n + n1 + (n2 + n3 + n4 + n5)) (n6 + n7) := by
    rw [range'_add]; congr 1; omega
  have hU : List.range' (n + n1 + n2 + n3 + n4 + n5 + n6 + n7) n8
      = List.range' (n + n1 + (n2 + n3 + n4 + n5) + (n6 + n7)) n8 := by congr 1; omega
  rw [hF, hS, hU, range'_add, Nat.add_assoc n n1, range'_add, Nat.add_assoc n, range'_add]

theorem CleanRequest.sem {child : Builder → Sem} {q : Request} (h : CleanRequest E child q) :
    CleanSem E (q.sem child) := by
  have hc : CleanDocs E (inTurn (q.ctes.map fun c => child c.builder)) := inTurn_clean fun f hf => by
    obtain ⟨c, h1, rfl⟩ := List.mem_map.1 hf; exact h.ctes c h1
  have ht : CleanDocs E (inTurn (q.rows.map fun r => child (rowBuilder r))) := inTurn_clean fun f hf => by
    obtain ⟨c, h1, rfl⟩ := List.mem_map.1 hf; exact h.rows c h1
  have hu : CleanDocs E (inTurn (q.unions.map child)) := inTurn_clean fun f hf => by
    obtain ⟨c, h1, rfl⟩ := List.mem_map.1 hf; exact h.unions c h1
  have hw := h.lists q.where_ (by simp)
  have hg := h.lists q.groupBy (by simp)
  have ho := h.lists q.orderBy (by simp)
  have hs := h.lists q.select (by simp)
  have hx := h.lists q.touches (by simp)
  intro log
  have hgrow : GrowsSem (q.sem child) := by
    unfold Request.sem
    refine hc.grows.bind fun qs => ht.grows.bind fun ts => hw.grows.bind fun ws => hg.grows.bind fun gs =>
      ho.grows.bind fun os => hs.grows.bind fun ss => hx.grows.bind fun xs => ?_
    split
    · exact growsSem_fail _
    · exact hu.grows.bind fun us => growsSem_pure _
  obtain ⟨δ, hδ⟩ := hgrow log
  refine ⟨δ, hδ, fun d hd => ?_⟩
  have hrun : q.sem child log = (.ok d, log ++ δ) := Prod.ext hd hδ
  unfold Request.sem at hrun
  obtain ⟨qs, l1, e1, hrun⟩ := semBind_ok hrun
  obtain ⟨ts, l2, e2, hrun⟩ := semBind_ok hrun
  obtain ⟨ws, l3, e3, hrun⟩ := semBind_ok hrun
  obtain ⟨gs, l4, e4, hrun⟩ := semBind_ok hrun
  obtain ⟨os, l5, e5, hrun⟩ := semBind_ok hrun
  obtain ⟨ss, l6, e6, hrun⟩ := semBind_ok hrun
  obtain ⟨xs, l7, e7, hrun⟩ := semBind_ok hrun
  split at hrun
  · cases hrun
  obtain ⟨us, l8, e8, hrun⟩ := semBind_ok hrun
  injection hrun with hd' hlen
  injection hd' with hd'
  subst hd'
  obtain ⟨n1, k1, b1⟩ := cleanDocs_ok hc e1
  obtain ⟨n2, k2, b2⟩ := cleanDocs_ok ht e2
  obtain ⟨n3, k3, b3⟩ := cleanDocs_ok hw e3
  obtain ⟨n4, k4, b4⟩ := cleanDocs_ok hg e4
  obtain ⟨n5, k5, b5⟩ := cleanDocs_ok ho e5
  obtain ⟨n6, k6, b6⟩ := cleanDocs_ok hs e6
  obtain ⟨n7, k7, b7⟩ := cleanDocs_ok hx e7
  obtain ⟨n8, k8, b8⟩ := cleanDocs_ok hu e8
  rw [binds_doc]
  dsimp only
  have hct : ((q.ctes.map (·.name)).zip qs).map (·.2) = qs := by
    rw [List.map_snd_zip]
    have := inTurn_length e1
    simp only [List.length_map] at this ⊢
    omega
  have hun : (if q.unions = [] then none else some us).getD [] = us := by
    split
    · rename_i hu
      have := inTurn_length e8
      rw [hu] at this
      exact (List.length_eq_zero_iff.1 (by simpa using this)).symm
    · rfl
  rw [hct, hun]
  have hδl : δ.length = n1 + (n2 + n3 + n4 + n5) + (n6 + n7) + n8 := by
    have := congrArg List.length hlen
    rw [List.length_append] at this
    omega
  rw [hδl]
  rw [k1] at b2 k2
  rw [k2] at b3 k3
  rw [k3] at b4 k4
  rw [k4] at b5 k5
  rw [k5] at b6 k6
  rw [k6] at b7 k7
  rw [k7] at b8 k8
  refine MarkRel.trans (MarkRel.app (MarkRel.app (MarkRel.app b1 (MarkRel.app b6 b7))
    (MarkRel.app (MarkRel.app (MarkRel.app b2 b3) b4) b5)) b8) ?_
  generalize log.length = n at *
  have hF : List.range' (n + n1) n2 ++ List.range' (n + n1 + n2) n3 ++ List.range' (n + n1 + n2 + n3) n4 ++ List.range' (n + n1 + n2 + n3 + n4) n5
      = List.range' (n + n1) (n2 + n3 + n4 + n5) := by
    rw [range'_add, Nat.add_assoc (n + n1) n2 n3, range'_add, Nat.add_assoc (n + n1), range'_add]
  have hS : List.range' (n + n1 + n2 + n3 + n4 + n5) n6 ++ List.range' (n + n1 + n2 + n3 + n4 + n5 + n6) n7
      = List.range' (n + n1 + (n2 + n3 + n4 + n5)) (n6 + n7) := by
    rw [range'_add]; congr 1; omega
  have hU : List.range' (n + n1 + n2 + n3 + n4 + n5 + n6 + n7) n8
      = List.range' (n + n1 + (n2 + n3 + n4 + n5) + (n6 + n7)) n8 := by congr 1; omega
  rw [hF, hS, hU]
  have hall : List.range' n n1 ++ (List.range' (n + n1) (n2 + n3 + n4 + n5) ++ List.range' (n + n1 + (n2 + n3 + n4 + n5)) (n6 + n7)) ++
      List.range' (n + n1 + (n2 + n3 + n4 + n5) + (n6 + n7)) n8 = List.range' n (n1 + (n2 + n3 + n4 + n5) + (n6 + n7) + n8) := by
    rw [range'_add, Nat.add_assoc n1, ← range'_add n, ← range'_add n]
    congr 2
    omega
  rw [← hall]
  refine MarkRel.app ?_ (MarkRel.refl _)
  rw [List.append_assoc]
  refine MarkRel.app (MarkRel.refl _) ?_
  rcases h.order with hno | hno | hcomm
  · have m6 : l6 = l5 := inList_nothing (fun f hf => by
      obtain ⟨c, h1, rfl⟩ := List.mem_map.1 hf; exact hno c (by simp [h1])) e6
    have m7 : l7 = l6 := inList_nothing (fun f hf => by
      obtain ⟨c, h1, rfl⟩ := List.mem_map.1 hf; exact hno c (by simp [h1])) e7
    have : n6 + n7 = 0 := by rw [m7, m6] at k7; omega
    rw [this]
    exact MarkRel.of_eq (by simp)
  · have m2 : l2 = l1 := inTurn_nothing (fun f hf => by
      obtain ⟨c, h1, rfl⟩ := List.mem_map.1 hf
      exact hno _ (by simp only [List.mem_append, List.mem_map]; exact .inl (.inl (.inl ⟨c, h1, rfl⟩)))) e2
    have m3 : l3 = l2 := inList_nothing (fun f hf => by
      obtain ⟨c, h1, rfl⟩ := List.mem_map.1 hf; exact hno c (by simp [h1])) e3
    have m4 : l4 = l3 := inList_nothing (fun f hf => by
      obtain ⟨c, h1, rfl⟩ := List.mem_map.1 hf; exact hno c (by simp [h1])) e4
    have m5 : l5 = l4 := inList_nothing (fun f hf => by
      obtain ⟨c, h1, rfl⟩ := List.mem_map.1 hf; exact hno c (by simp [h1])) e5
    have : n2 + n3 + n4 + n5 = 0 := by rw [m5, m4, m3, m2] at k5; omega
    rw [this]
    exact MarkRel.of_eq (by simp)
  · exact hcomm _ _

/-! ## Query builders -/

theorem mem_glue {e : Expr} (hp : ∀ t, e ≠ .plain t) (es : List Expr) : e ∈ glue es ↔ e ∈ es := by
  induction es with
  | nil => rfl
  | cons e1 es ih =>
    cases e1 with
    | plain t =>
      have h0 : (e ∈ Expr.plain t :: es) ↔ e ∈ glue es := by rw [ih]; simp [hp t]
      rw [glue]
      split
      · rw [ih]; simp [hp t]
      · rw [h0]
        cases glue es with
        | nil => simp [hp t]
        | cons e' r => cases e' <;> simp [hp]
    | func f => simp [glue, ih]
    | call n a => simp [glue, ih]
    | bindVar t i => simp [glue, ih]

/-- Text, or `#f1` if there is a first fragment. -/
def SimpleExpr (nF : Nat) (e : Expr) : Prop := (∃ t, e = .plain t) ∨ (e = .call (lit "f") [.num (.nat 1)] ∧ 0 < nF)

theorem simple_of_render (L : GoLib) {is : List Item} (hw : WF is) {es : List Expr} (hm : meaning 0 false is = some es)
    {nF : Nat} (hj : ∀ e ∈ es, SimpleExpr nF e) :
    ∀ es', (parse L (render is)).toOption = some es' → ∀ e ∈ es', SimpleExpr nF e := by
  intro es' hp e he
  obtain ⟨es2, h1, h2⟩ := parse_render_some L hw hm
  rw [h1] at hp
  cases hp
  by_cases h : ∃ t, e = .plain t
  · exact .inl h
  · have h' : ∀ t, e ≠ .plain t := fun t ht => h ⟨t, ht⟩
    exact hj e ((mem_glue h' es).1 (by rw [← h2]; exact (mem_glue h' _).2 he))

theorem tidyClause_simple {L : GoLib} {parse : Str → Option (List Expr)} {nA nF k : Nat} {es : List Expr}
    (h : ∀ e ∈ es, SimpleExpr k e) : tidyClause L parse nA nF es = true := by
  unfold tidyClause
  rw [List.all_eq_true]
  intro e he
  rcases h e he with ⟨t, rfl⟩ | ⟨rfl, -⟩
  · rfl
  · show (if lit "f" = lit "join" then _ else true) = true
    rw [if_neg (by decide)]

theorem clauseDoc_simple {L : GoLib} {parse : Str → Option (List Expr)} {bad : Val → Bool} {args : List Val} {frags : List Sem}
    (hf : ∀ f ∈ frags, ∀ log, (f log).1 ≠ .invalidIndex) (depth : Nat) {es : List Expr}
    (h : ∀ e ∈ es, SimpleExpr frags.length e) (s : Session) :
    (clauseDoc bad ⟨args, frags⟩ (callDoc L parse bad ⟨args, frags⟩ depth) es s).1 ≠ .invalidIndex := by
  induction es generalizing s with
  | nil => simp [clauseDoc, Step.pure]
  | cons e es ih =>
    have he : ∀ s, (exprDoc bad ⟨args, frags⟩ (callDoc L parse bad ⟨args, frags⟩ depth) e s).1 ≠ .invalidIndex := by
      intro s
      rcases h e (by simp) with ⟨t, rfl⟩ | ⟨rfl, h1⟩
      · simp [exprDoc, Step.pure]
      · rw [exprDoc]
        unfold callDoc
        rw [if_neg (by decide), if_pos (by decide)]
        simp only [indexArg, show Flt.toInt L (.nat 1) = 1 from rfl, Step.contain, fragDoc]
        cases frags with
        | nil => cases h1
        | cons f fs =>
          have h2 := hf f (by simp) s.log
          rw [show item? (1 : Int) (f :: fs) = some f from rfl]
          revert h2
          dsimp only
          cases (f s.log).1 <;> simp
    unfold clauseDoc
    have h2 := he s
    unfold Step.bind
    rcases hr : exprDoc bad ⟨args, frags⟩ (callDoc L parse bad ⟨args, frags⟩ depth) e s with ⟨r, s'⟩
    rw [hr] at h2
    cases r with
    | ok d =>
      have h' := ih (fun e he => h e (by simp [he])) s'
      dsimp only
      rcases hr' : clauseDoc bad ⟨args, frags⟩ (callDoc L parse bad ⟨args, frags⟩ depth) es s' with ⟨r', s''⟩
      rw [hr'] at h'
      cases r' <;> simp_all [Step.pure]
    | invalidIndex => exact absurd rfl h2
    | error => simp
    | panic => simp

theorem fragmentSem_simple {L : GoLib} {parse : Str → Option (List Expr)} {bad : Val → Bool} {raw : Str} {args : List Val}
    {frags : List Sem} (pre suf : Str) (hf : ∀ f ∈ frags, ∀ log, (f log).1 ≠ .invalidIndex)
    (h : ∀ es, parse raw = some es → ∀ e ∈ es, SimpleExpr frags.length e) (log : List Val) :
    (fragmentSem L parse bad raw args frags pre suf log).1 ≠ .invalidIndex := by
  unfold fragmentSem
  cases hp : parse raw with
  | none => simp
  | some es =>
    have h2 := clauseDoc_simple (L := L) (parse := parse) (bad := bad) (args := args) hf raw.length (h es hp) ⟨log, []⟩
    dsimp only
    rcases hr : clauseDoc bad ⟨args, frags⟩ (callDoc L parse bad ⟨args, frags⟩ raw.length) es ⟨log, []⟩ with ⟨r, s⟩
    rw [hr] at h2
    cases r with
    | ok d => dsimp only; split <;> simp
    | invalidIndex => exact absurd rfl h2
    | error => simp
    | panic => simp

theorem orderText_plain {k : Nat} {o : Str} (h : orderText k = some o) : ∀ b ∈ o, plainByte b = true := by
  unfold orderText at h
  match k, h with
  | 0, h | 1, h | 2, h | 3, h | 4, h | 5, h => cases h; decide +kernel
  | n + 6, h => simp at h

theorem digits_plain (n : Nat) : ∀ b ∈ natDigits n, plainByte b = true := by
  intro b hb
  have := mem_digits hb
  simp only [isDigitB, Bool.and_eq_true, decide_eq_true_eq] at this
  obtain ⟨h1, h2⟩ := this
  simp only [plainByte, Bool.and_eq_true, decide_eq_true_eq]
  refine ⟨⟨⟨⟨⟨⟨?_, ?_⟩, ?_⟩, ?_⟩, ?_⟩, ?_⟩, ?_⟩ <;> (rintro rfl; revert h1 h2; decide)

theorem orderAlias_plain (n : Nat) : ∀ b ∈ orderAlias n, plainByte b = true := by
  intro b hb
  rcases List.mem_append.1 hb with h | h
  · exact (by decide +kernel : ∀ b ∈ lit "_order_", plainByte b = true) b h
  · exact digits_plain n b h

theorem plain_wf {s : Str} (h : ∀ b ∈ s, plainByte b = true) (hs : s ≠ []) : WF [.text s] := by
  simp only [WF, Item.WF, Follows, FollowsItem, and_true]
  exact ⟨h, by simpa using hs⟩

theorem f1_wf {s : Str} (h : ∀ b ∈ s, plainByte b = true) : WF [.callN (lit "f") 1, .text (0x20 :: s)] := by
  refine ⟨⟨⟨by decide, by decide⟩, by decide⟩, by simp, ?_, trivial, plain_wf ?_ (by simp)⟩
  · intro b hb
    cases hb
    decide
  · intro b hb
    rcases List.mem_cons.1 hb with rfl | hb
    · decide
    · exact h b hb

theorem semQL_length (L : GoLib) (parse : Str → Option (List Expr)) (bad : Val → Bool) (env : Nat → Sem) (bs : List Builder) :
    (semQL L parse bad env bs).length = bs.length := by
  induction bs with
  | nil => simp [semQL]
  | cons b bs ih => simp [semQL, ih]

mutual
theorem semQ_clean (L : GoLib) (parse : Str → Option (List Expr)) (bad : Val → Bool) (env : Nat → Sem) :
    ∀ b, TidyQ L parse (semQ L parse bad env) b → (∀ r ∈ qbRefs b, CleanSem E (env r)) → CleanSem E (semQ L parse bad env b)
  | .frag f, h, he => by
    rw [TidyQ] at h; rw [qbRefs] at he; rw [semQ]; exact semQF_clean L parse bad env f h he
  | .column _ f, h, he => by
    rw [TidyQ] at h; rw [qbRefs] at he; rw [semQ]; exact semQF_clean L parse bad env f h he
  | .custom _, h, _ => by simp [TidyQ] at h
  | .qb r, _, he => by rw [semQ]; exact he r (by simp [qbRefs])
  | .table t, _, _ => by unfold semQ; exact fun log => cleanAt_same fun d hd => by cases hd; exact binds_ofStr _
  | .aliased n a, _, _ => by unfold semQ; exact fun log => cleanAt_same fun d hd => by cases hd; exact binds_ofStr _
  | .nilFrag, _, _ => by unfold semQ; exact fun log => cleanAt_same fun d hd => by cases hd; rfl
  | .columnNilFrag _, _, _ => by unfold semQ; exact fun log => cleanAt_same fun d hd => by cases hd; rfl
  | .nilQb, _, _ => by unfold semQ; exact fun log => cleanAt_same fun d hd => by cases hd; rfl
  | .nil, _, _ => by unfold semQ; exact fun log => cleanAt_same fun d hd => by cases hd
  | .nilColumn, _, _ => by unfold semQ; exact fun log => cleanAt_same fun d hd => by cases hd
theorem semQF_clean (L : GoLib) (parse : Str → Option (List Expr)) (bad : Val → Bool) (env : Nat → Sem) :
    ∀ f, TidyQF L parse (semQ L parse bad env) f → (∀ r ∈ qbRefsF f, CleanSem E (env r)) → CleanSem E (semQF L parse bad env f)
  | .mk raw args frags pre suf, h, he => by
    rw [TidyQF] at h
    rw [qbRefsF] at he
    rw [semQF]
    refine fragmentSem_clean pre suf (semQL_clean L parse bad env frags h.2 he) ?_
    intro es hp
    rw [semQL_length]; exact h.1 es hp
theorem semQL_clean (L : GoLib) (parse : Str → Option (List Expr)) (bad : Val → Bool) (env : Nat → Sem) :
    ∀ bs, TidyQL L parse (semQ L parse bad env) bs → (∀ r ∈ qbRefsL bs, CleanSem E (env r)) →
      ∀ f ∈ semQL L parse bad env bs, CleanSem E f ∧ ∀ log, (f log).1 ≠ .invalidIndex
  | [], _, _ => by simp [semQL]
  | b :: bs, h, he => by
    rw [TidyQL] at h
    rw [qbRefsL] at he
    intro f hf
    rw [semQL] at hf
    rcases List.mem_cons.1 hf with rfl | hf
    · exact ⟨semQ_clean L parse bad env b h.1 fun r hr => he r (List.mem_append.2 (.inl hr)), h.2.1⟩
    · exact semQL_clean L parse bad env bs h.2.2 (fun r hr => he r (List.mem_append.2 (.inr hr))) f hf
end

theorem tidyQL_iff (L : GoLib) (parse : Str → Option (List Expr)) (child : Builder → Sem) (bs : List Builder) :
    TidyQL L parse child bs ↔ ∀ b ∈ bs, TidyQ L parse child b ∧ ∀ log, (child b log).1 ≠ .invalidIndex := by
  induction bs with
  | nil => simp [TidyQL]
  | cons b bs ih => simp [TidyQL, ih, and_assoc]

theorem plain_template (L : GoLib) {t : Str} (h : ∀ b ∈ t, plainByte b = true) (ht : t ≠ []) :
    ∀ es', (parse L t).toOption = some es' → ∀ e ∈ es', SimpleExpr 0 e := by
  have := simple_of_render L (nF := 0) (plain_wf h ht) (es := [.plain t]) rfl (fun e he => .inl ⟨t, List.mem_singleton.1 he⟩)
  simpa [render, renderItem] using this

theorem f1_template (L : GoLib) {t : Str} (h : ∀ b ∈ t, plainByte b = true) :
    ∀ es', (parse L (lit "#f1 " ++ t)).toOption = some es' → ∀ e ∈ es', SimpleExpr 1 e := by
  have := simple_of_render L (nF := 1) (f1_wf h) (es := [.call (lit "f") [.num (.nat 1)], .plain (0x20 :: t)]) rfl (fun e he => by
    simp only [List.mem_cons, List.not_mem_nil, or_false] at he
    rcases he with rfl | rfl
    · exact .inr ⟨rfl, by decide⟩
    · exact .inl ⟨_, rfl⟩)
  rw [show render [.callN (lit "f") 1, .text (0x20 :: t)] = lit "#f1 " ++ t by
    simp only [render, renderItem, List.flatMap_cons, List.flatMap_nil, List.append_nil]
    rw [show natDigits 1 = lit "1" by decide +kernel]
    rfl] at this
  exact this

/-- The fragments made for ORDER BY have simple templates. -/
theorem orderBuilders_template (L : GoLib) {d : Bool} {i : Nat} {items : List OrderItem} {c : Builder} (h : c ∈ orderBuilders d i items) :
    ∃ t cols, (∀ es', (parse L t).toOption = some es' → ∀ e ∈ es', SimpleExpr cols.length e) ∧ c = .frag (.Ff t cols) ∧
      ∀ x ∈ cols, ∃ o ∈ items, x = o.column := by
  induction items generalizing i with
  | nil => simp [orderBuilders] at h
  | cons o items ih =>
    rw [orderBuilders, List.mem_append] at h
    rcases h with h | h
    · cases ho : orderText o.order with
      | none => rw [ho] at h; cases h
      | some t =>
        rw [ho] at h
        dsimp only at h
        split at h
        · have hp : ∀ b ∈ orderAlias i ++ lit " " ++ t, plainByte b = true := by
            intro b hb
            rw [List.mem_append, List.mem_append] at hb
            rcases hb with (hb | hb) | hb
            · exact orderAlias_plain i b hb
            · revert b; decide
            · exact orderText_plain ho b hb
          exact ⟨_, [], plain_template L hp (by simp [show lit " " ≠ [] by decide]), List.mem_singleton.1 h, by simp⟩
        · exact ⟨_, [o.column], f1_template L (orderText_plain ho), List.mem_singleton.1 h, by simp⟩
    · obtain ⟨t, cols, h1, h2, h3⟩ := ih h
      refine ⟨t, cols, h1, h2, fun x hx => ?_⟩
      obtain ⟨o', h4, h5⟩ := h3 x hx
      exact ⟨o', by simp [h4], h5⟩

theorem orderColumns_template (L : GoLib) {d : Bool} {i : Nat} {items : List OrderItem} {c : Builder} (h : c ∈ orderColumns d i items) :
    ∃ t cols, (∀ es', (parse L t).toOption = some es' → ∀ e ∈ es', SimpleExpr cols.length e) ∧ c = .frag (.Ff t cols) ∧
      ∀ x ∈ cols, ∃ o ∈ items, x = o.column := by
  obtain ⟨-, o, h1, i, h2⟩ := orderColumns_touch h
  refine ⟨_, [o.column], ?_, h2, fun x hx => ⟨o, h1, List.mem_singleton.1 hx⟩⟩
  have hp : ∀ b ∈ lit "AS " ++ orderAlias i, plainByte b = true := by
    intro b hb
    rw [List.mem_append] at hb
    rcases hb with hb | hb
    · revert b; decide
    · exact orderAlias_plain i b hb
  have := f1_template L hp
  rw [← List.append_assoc, show lit "#f1 " ++ lit "AS " = lit "#f1 AS " by decide] at this
  exact this

section
variable {L : GoLib} {bad : Val → Bool} {env : Nat → Sem}

theorem order_clean {t : Str} {cols : List Builder}
    (ht : ∀ es', (parse L t).toOption = some es' → ∀ e ∈ es', SimpleExpr cols.length e)
    (hc : ∀ c ∈ cols, CleanSem E (semQ L (fun s => (parse L s).toOption) bad env c) ∧
      ∀ log, (semQ L (fun s => (parse L s).toOption) bad env c log).1 ≠ .invalidIndex) :
    CleanSem E (semQ L (fun s => (parse L s).toOption) bad env (.frag (.Ff t cols))) ∧
      ∀ log, (semQ L (fun s => (parse L s).toOption) bad env (.frag (.Ff t cols)) log).1 ≠ .invalidIndex := by
  unfold Fragment.Ff
  rw [semQ, semQF]
  have hm : ∀ f ∈ semQL L (fun s => (parse L s).toOption) bad env cols, ∃ c ∈ cols, f = semQ L (fun s => (parse L s).toOption) bad env c := by
    clear ht hc
    induction cols with
    | nil => simp [semQL]
    | cons c cs ih =>
      intro f hf
      rw [semQL] at hf
      rcases List.mem_cons.1 hf with rfl | hf
      · exact ⟨c, by simp, rfl⟩
      · obtain ⟨c', h1, h2⟩ := ih f hf
        exact ⟨c', by simp [h1], h2⟩
  rw [← semQL_length L (fun s => (parse L s).toOption) bad env cols] at ht
  refine ⟨fragmentSem_clean _ _ ?_ fun es he => tidyClause_simple (ht es he), fragmentSem_simple _ _ ?_ ht⟩
  · intro f hf
    obtain ⟨c, h1, rfl⟩ := hm f hf
    exact hc c h1
  · intro f hf
    obtain ⟨c, h1, rfl⟩ := hm f hf
    exact (hc c h1).2

theorem requestOf_clean {b : QB} (ht : TidyQB L (semQ L (fun s => (parse L s).toOption) bad env) b)
    (he : ∀ r ∈ qbRefsL (partsOf b), CleanSem E (env r)) (deps : List TableAliased) :
    CleanParts E (semQ L (fun s => (parse L s).toOption) bad env) (requestOf b deps) := by
  rw [TidyQB, tidyQL_iff] at ht
  have hp : ∀ c ∈ partsOf b, CleanSem E (semQ L (fun s => (parse L s).toOption) bad env c) ∧
      ∀ log, (semQ L (fun s => (parse L s).toOption) bad env c log).1 ≠ .invalidIndex := fun c hc =>
    ⟨semQ_clean L _ bad env c (ht c hc).1 fun r hr => he r ((mem_qbRefsL _ _).2 ⟨c, hc, hr⟩), (ht c hc).2⟩
  have hcol : ∀ o ∈ b.orders, o.column ∈ partsOf b := by
    intro o ho
    unfold partsOf
    simp only [List.mem_append]
    exact .inl (.inl (.inl (.inr (List.mem_map_of_mem ho))))
  have hlist : ∀ c ∈ b.conditions.frags ++ b.groupbys.frags ++ orderBuilders b.distinct 1 b.orders ++ b.selects.frags ++
      (b.touches.frags ++ orderColumns b.distinct 1 b.orders), CleanSem E (semQ L (fun s => (parse L s).toOption) bad env c) ∧
      ∀ log, (semQ L (fun s => (parse L s).toOption) bad env c log).1 ≠ .invalidIndex := by
    intro c hc
    simp only [List.mem_append] at hc
    rcases hc with (((hc | hc) | hc) | hc) | hc | hc
    · exact hp c (by simp only [partsOf, List.mem_append]; simp [hc])
    · exact hp c (by simp only [partsOf, List.mem_append]; simp [hc])
    · obtain ⟨t, cols, h1, rfl, h3⟩ := orderBuilders_template L hc
      refine order_clean h1 fun x hx => ?_
      obtain ⟨o, h4, rfl⟩ := h3 x hx
      exact hp _ (hcol o h4)
    · exact hp c (by simp only [partsOf, List.mem_append]; simp [hc])
    · exact hp c (by simp only [partsOf, List.mem_append]; simp [hc])
    · obtain ⟨t, cols, h1, rfl, h3⟩ := orderColumns_template L hc
      refine order_clean h1 fun x hx => ?_
      obtain ⟨o, h4, rfl⟩ := h3 x hx
      exact hp _ (hcol o h4)
  refine ⟨fun c hc => ?_, fun r hr => ?_, fun u hu => ?_, fun cs hcs => inList_clean fun f hf => ?_⟩
  · have : c ∈ b.ctes := (List.mem_filter.1 hc).1
    refine (hp _ ?_).1
    simp only [partsOf, List.mem_append]
    exact .inl (.inl (.inl (.inl (.inl (.inl (.inl (List.mem_map_of_mem (f := (·.builder)) this)))))))
  · have : r ∈ b.tableList := (List.mem_filter.1 hr).1
    refine (hp _ ?_).1
    simp only [partsOf, List.mem_append]
    exact .inl (.inl (.inl (.inl (.inl (.inl (.inr (List.mem_map_of_mem (f := rowBuilder) this)))))))
  · have : u ∈ b.unions := hu
    refine (hp _ ?_).1
    simp only [partsOf, List.mem_append]
    exact .inr this
  · obtain ⟨c, hc, rfl⟩ := List.mem_map.1 hf
    refine hlist c ?_
    simp only [requestOf, List.mem_cons, List.not_mem_nil, or_false] at hcs
    simp only [List.mem_append]
    rcases hcs with rfl | rfl | rfl | rfl | rfl
    · exact .inl (.inl (.inl (.inl hc)))
    · exact .inl (.inl (.inl (.inr hc)))
    · exact .inl (.inl (.inr hc))
    · exact .inl (.inr hc)
    · exact .inr (List.mem_append.1 hc)

theorem qbSem_clean {b : QB} (ht : TidyQB L (semQ L (fun s => (parse L s).toOption) bad env) b)
    (he : ∀ r ∈ qbRefsL (partsOf b), CleanSem E (env r))
    (ho : ArgsInOrder (semQ L (fun s => (parse L s).toOption) bad env) b ∨ ∀ x y, E (x ++ y) (y ++ x)) :
    CleanSem E (qbSem (semQ L (fun s => (parse L s).toOption) bad env) b) := by
  unfold qbSem
  split
  · exact fun log => cleanAt_same fun d hd => by cases hd
  · split
    · rename_i deps _
      refine CleanRequest.sem ⟨requestOf_clean ht he deps, ?_⟩
      · rcases ho with (ho | ho) | ho
        · refine .inl fun c hc => ho c ?_
          simpa only [requestOf, List.append_assoc] using hc
        · refine .inr (.inl fun c hc => ho c ?_)
          simp only [requestOf, List.mem_append, List.mem_map, List.mem_filter] at hc ⊢
          rcases hc with ((⟨r, ⟨h1, -⟩, h2⟩ | hc) | hc) | hc
          · exact .inl (.inl (.inl ⟨r, h1, h2⟩))
          · exact .inl (.inl (.inr hc))
          · exact .inl (.inr hc)
          · exact .inr hc
        · exact .inr (.inr ho)
    · exact fun log => cleanAt_same fun d hd => by cases hd
    · exact fun log => cleanAt_same fun d hd => by cases hd

end

theorem heapSem_clean {L : GoLib} {style : Style} {P : (Builder → Sem) → QB → Prop} {heap : List QB}
    (hP : ∀ child b, P child b → TidyQB L child b ∧ (ArgsInOrder child b ∨ ∀ x y, E (x ++ y) (y ++ x)))
    (depth r : Nat) (h : Throughout L style P heap depth r) :
    CleanSem E (heapSem L (fun s => (parse L s).toOption) (cannotCommit style) heap depth r) := by
  induction depth generalizing r with
  | zero => exact h.elim
  | succ depth ih =>
    obtain ⟨b, h1, h2, h3⟩ := h
    unfold heapSem
    rw [h1]
    exact qbSem_clean (hP _ _ h2).1 (fun r hr => ih r (h3 r hr)) (hP _ _ h2).2

end

/-! ## Checking concrete query builders -/

def isInvalid : Res Doc → Bool
  | .invalidIndex => true
  | _ => false

mutual
def tidyQCheck (L : GoLib) (parse : Str → Option (List Expr)) (child : Builder → Sem) (log : List Val) : Builder → Bool
  | .frag f => tidyQFCheck L parse child log f
  | .column _ f => tidyQFCheck L parse child log f
  | .custom _ => false
  | _ => true
def tidyQFCheck (L : GoLib) (parse : Str → Option (List Expr)) (child : Builder → Sem) (log : List Val) : Fragment → Bool
  | .mk raw args frags _ _ =>
    (match parse raw with
      | some es => tidyClause L parse args.length frags.length es
      | none => true) && tidyQLCheck L parse child log frags
def tidyQLCheck (L : GoLib) (parse : Str → Option (List Expr)) (child : Builder → Sem) (log : List Val) : List Builder → Bool
  | [] => true
  | b :: bs => tidyQCheck L parse child log b && !isInvalid (child b log).1 && tidyQLCheck L parse child log bs
end

mutual
theorem tidyQ_check {L : GoLib} {parse : Str → Option (List Expr)} {child : Builder → Sem} :
    ∀ b, (∀ log, tidyQCheck L parse child log b = true) → TidyQ L parse child b
  | .frag f, h => by rw [TidyQ]; exact tidyQF_check f fun log => by have := h log; rwa [tidyQCheck] at this
  | .column _ f, h => by rw [TidyQ]; exact tidyQF_check f fun log => by have := h log; rwa [tidyQCheck] at this
  | .custom _, h => by have := h []; simp [tidyQCheck] at this
  | .qb _, _ | .table _, _ | .aliased _ _, _ | .nil, _ | .nilFrag, _ | .nilColumn, _ | .columnNilFrag _, _
  | .nilQb, _ => by simp [TidyQ]
theorem tidyQF_check {L : GoLib} {parse : Str → Option (List Expr)} {child : Builder → Sem} :
    ∀ f, (∀ log, tidyQFCheck L parse child log f = true) → TidyQF L parse child f
  | .mk raw args frags pre suf, h => by
    have h' : ∀ log, (match parse raw with
      | some es => tidyClause L parse args.length frags.length es
      | none => true) = true ∧ tidyQLCheck L parse child log frags = true := fun log => by
      have := h log
      rw [tidyQFCheck, Bool.and_eq_true] at this
      exact this
    rw [TidyQF]
    refine ⟨fun es hp => ?_, tidyQL_check frags fun log => (h' log).2⟩
    have := (h' []).1
    rwa [hp] at this
theorem tidyQL_check {L : GoLib} {parse : Str → Option (List Expr)} {child : Builder → Sem} :
    ∀ bs, (∀ log, tidyQLCheck L parse child log bs = true) → TidyQL L parse child bs
  | [], _ => by simp [TidyQL]
  | b :: bs, h => by
    have h' : ∀ log, (tidyQCheck L parse child log b = true ∧ (!isInvalid (child b log).1) = true) ∧ tidyQLCheck L parse child log bs = true := fun log => by
      have := h log
      rw [tidyQLCheck, Bool.and_eq_true, Bool.and_eq_true] at this
      exact this
    rw [TidyQL]
    refine ⟨tidyQ_check b fun log => (h' log).1.1, fun log hi => ?_, tidyQL_check bs fun log => (h' log).2⟩
    have := (h' log).1.2
    rw [hi] at this
    cases this
end

theorem nothing_check {child : Builder → Sem} {cs : List Builder}
    (h : ∀ log, (cs.map fun c => (child c log).2) = cs.map fun _ => log) : ∀ c ∈ cs, CommitsNothing (child c) :=
  fun c hc log => List.map_inj_left.1 (h log) c hc

end Sqlf
