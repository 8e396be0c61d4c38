import Verif.Proofs.QueryTidy
import Verif.Spec.Debug
/-!
# The marks of a query are distinct committed values

In any builder, tidy or not: a value may be committed without leaving a mark, but no mark is left without a value
committed for it, and no two marks for one value.
-/

namespace Sqlf

open Spec

/-- The first list is a part of the second, in any order. -/
def PartOf (a b : List Nat) : Prop := ∃ c, (a ++ c).Perm b

theorem partOf_left (a b : List Nat) : PartOf a (a ++ b) := ⟨b, .refl _⟩

theorem partOf_comm (a b : List Nat) : PartOf (a ++ b) (b ++ a) := ⟨[], by simpa using List.perm_append_comm⟩

instance : MarkRel PartOf where
  refl a := ⟨[], by simp⟩
  trans := by
    rintro a b c ⟨x, hx⟩ ⟨y, hy⟩
    refine ⟨x ++ y, ?_⟩
    rw [← List.append_assoc]
    exact (hx.append_right y).trans hy
  app := by
    rintro a b c d ⟨x, hx⟩ ⟨y, hy⟩
    refine ⟨x ++ y, List.Perm.trans ?_ (hx.append hy)⟩
    rw [List.append_assoc, List.append_assoc, ← List.append_assoc c, ← List.append_assoc x]
    exact (List.perm_append_comm.append_right y).append_left a

theorem partOf_nodup {a b : List Nat} (h : PartOf a b) (hb : b.Nodup) : a.Nodup := by
  obtain ⟨c, hc⟩ := h
  exact (List.nodup_append.1 (hc.nodup_iff.2 hb)).1

theorem partOf_mem {a b : List Nat} (h : PartOf a b) {x : Nat} (hx : x ∈ a) : x ∈ b := by
  obtain ⟨c, hc⟩ := h
  exact hc.mem_iff.1 (List.mem_append.2 (.inl hx))

theorem partOf_length {a b : List Nat} (h : PartOf a b) : a.length ≤ b.length := by
  obtain ⟨c, hc⟩ := h
  have := hc.length_eq
  rw [List.length_append] at this
  omega

abbrev Marked (f : Sem) : Prop := CleanSem PartOf f

theorem argDoc_marked (bad : Val → Bool) (sc : Scope) (i : Int) : CleanStep PartOf (argDoc bad sc i) :=
  argDoc_clean bad sc i

theorem fragDoc_marked {sc : Scope} (hsc : ∀ f ∈ sc.frags, Marked f) (i : Int) : CleanStep PartOf (fragDoc sc i) := by
  intro s
  unfold fragDoc
  cases h : item? i sc.frags with
  | none => exact cleanAt_same fun d hd => by cases hd
  | some f => exact hsc f (item?_mem h) s.log

theorem itemsDoc_marked {eval : List Expr → Step Doc} {es : List Expr} (sep : Str) (first to : Int)
    (hc : ∀ i, CleanStep PartOf (eval (atIndex i es))) (n : Nat) (i : Int) (acc : Doc) (s : Session) :
    ∃ δ, (itemsDoc eval es sep first to n i acc s).2.log = s.log ++ δ ∧
      ∀ e, (itemsDoc eval es sep first to n i acc s).1 = .ok e →
        PartOf (binds e) (binds acc ++ List.range' s.log.length δ.length) := by
  induction n generalizing i acc s with
  | zero => exact ⟨[], by simp [itemsDoc, Step.fail], fun e he => by simp [itemsDoc, Step.fail] at he⟩
  | succ n ih =>
    unfold itemsDoc
    have h := hc i s
    rcases hr : eval (atIndex i es) s with ⟨r, s'⟩
    rw [hr] at h
    obtain ⟨δ, h3, h4⟩ := h
    cases r with
    | ok d =>
      dsimp only at h3 h4 ⊢
      split
      · refine ⟨δ, h3, fun e he => ?_⟩
        cases he
        rw [binds_joinDoc]
        exact MarkRel.app (MarkRel.refl _) (h4 d rfl)
      · obtain ⟨δ', h5, h6⟩ := ih (i + 1) (joinDoc sep acc d) s'
        refine ⟨δ ++ δ', by rw [h5, h3, List.append_assoc], fun e he => ?_⟩
        refine MarkRel.trans (h6 e he) ?_
        rw [binds_joinDoc, h3, List.length_append, List.length_append, List.append_assoc, ← range'_add]
        exact MarkRel.app (MarkRel.refl _) (MarkRel.app (h4 d rfl) (MarkRel.refl _))
    | invalidIndex =>
      dsimp only at h3 ⊢
      split
      · exact ⟨δ, h3, fun e he => by cases he⟩
      · exact ⟨δ, h3, fun e he => by cases he; exact partOf_left _ _⟩
    | error => exact ⟨δ, h3, fun e he => by cases he⟩
    | panic => exact ⟨δ, h3, fun e he => by cases he⟩

theorem joinCall_marked {parse : Str → Option (List Expr)} {eval : List Expr → Step Doc}
    (hc : ∀ es, CleanStep PartOf (eval es)) (items : Nat) (tmpl sep : Str) (is : List Int) :
    CleanStep PartOf (joinCall parse eval items tmpl sep is) := by
  unfold joinCall
  split
  · exact clean_fail fun d hd => by cases hd
  · dsimp only
    split
    · exact clean_fail fun d hd => by cases hd
    · cases parse tmpl with
      | none => exact clean_fail fun d hd => by cases hd
      | some es =>
        dsimp only
        split
        · exact clean_fail fun d hd => by cases hd
        · intro s
          have := itemsDoc_marked (es := es) sep (is.getD 0 0) (is.getD 1 0) (fun i => hc (atIndex i es)) (items + 1)
            (if is.getD 0 0 ≤ 0 then 1 else is.getD 0 0) [] s
          simpa [CleanAt, binds] using this

theorem callDoc_marked {L : GoLib} {parse : Str → Option (List Expr)} {bad : Val → Bool} {sc : Scope}
    (hsc : ∀ f ∈ sc.frags, Marked f) (depth : Nat) (name : Str) (as : List CallArg) :
    CleanStep PartOf (callDoc L parse bad sc depth name as) := by
  induction depth generalizing name as with
  | zero =>
    unfold callDoc
    split
    · split
      · exact clean_fail fun d hd => by cases hd
      · exact (argDoc_clean bad sc _).contain
    · split
      · split
        · exact clean_fail fun d hd => by cases hd
        · exact (fragDoc_marked hsc _).contain
      · split
        · split <;> exact clean_fail fun d hd => by cases hd
        · exact clean_fail fun d hd => by cases hd
  | succ depth ih =>
    unfold callDoc
    split
    · split
      · exact clean_fail fun d hd => by cases hd
      · exact (argDoc_clean bad sc _).contain
    · split
      · split
        · exact clean_fail fun d hd => by cases hd
        · exact (fragDoc_marked hsc _).contain
      · split
        · split
          · exact (joinCall_marked (fun es => clauseDoc_clean es fun n a _ => ih n a) _ _ _ _).contain
          · exact clean_fail fun d hd => by cases hd
          · exact clean_fail fun d hd => by cases hd
        · exact clean_fail fun d hd => by cases hd

theorem fragmentSem_marked {L : GoLib} {parse : Str → Option (List Expr)} {bad : Val → Bool} {raw : Str} {args : List Val}
    {frags : List Sem} (pre suf : Str) (hf : ∀ f ∈ frags, Marked f) : Marked (fragmentSem L parse bad raw args frags pre suf) := by
  intro log
  unfold fragmentSem
  cases parse raw with
  | none => exact cleanAt_same fun d hd => by cases hd
  | some es =>
    have h := clauseDoc_clean (E := PartOf) (bad := bad) (sc := ⟨args, frags⟩)
      (call := callDoc L parse bad ⟨args, frags⟩ raw.length) es (fun name as _ => callDoc_marked hf raw.length name as) ⟨log, []⟩
    dsimp only
    rcases hr : clauseDoc bad ⟨args, frags⟩ (callDoc L parse bad ⟨args, frags⟩ raw.length) es ⟨log, []⟩ with ⟨r, s⟩
    rw [hr] at h
    obtain ⟨δ, h1, h2⟩ := h
    cases r with
    | ok d =>
      dsimp only
      split
      · exact ⟨δ, h1, fun e he => by cases he; rw [binds_decorateDoc]; exact h2 d rfl⟩
      · exact ⟨δ, h1, fun e he => by cases he⟩
    | invalidIndex => exact ⟨δ, h1, fun e he => by cases he⟩
    | error => exact ⟨δ, h1, fun e he => by cases he⟩
    | panic => exact ⟨δ, h1, fun e he => by cases he⟩

mutual
theorem semQ_marked (L : GoLib) (parse : Str → Option (List Expr)) (bad : Val → Bool) (env : Nat → Sem) (he : ∀ r, Marked (env r)) :
    ∀ b, Marked (semQ L parse bad env b)
  | .frag f => by rw [semQ]; exact semQF_marked L parse bad env he f
  | .column _ f => by rw [semQ]; exact semQF_marked L parse bad env he f
  | .qb r => by rw [semQ]; exact he r
  | .table t => by unfold semQ; exact fun log => cleanAt_same fun d hd => by cases hd; exact binds_ofStr _
  | .aliased n a => by unfold semQ; exact fun log => cleanAt_same fun d hd => by cases hd; exact binds_ofStr _
  | .nilFrag => by unfold semQ; exact fun log => cleanAt_same fun d hd => by cases hd; rfl
  | .columnNilFrag _ => by unfold semQ; exact fun log => cleanAt_same fun d hd => by cases hd; rfl
  | .nilQb => by unfold semQ; exact fun log => cleanAt_same fun d hd => by cases hd; rfl
  | .custom _ => by unfold semQ; exact fun log => cleanAt_same fun d hd => by cases hd
  | .nil => by unfold semQ; exact fun log => cleanAt_same fun d hd => by cases hd
  | .nilColumn => by unfold semQ; exact fun log => cleanAt_same fun d hd => by cases hd
theorem semQF_marked (L : GoLib) (parse : Str → Option (List Expr)) (bad : Val → Bool) (env : Nat → Sem) (he : ∀ r, Marked (env r)) :
    ∀ f, Marked (semQF L parse bad env f)
  | .mk raw args frags pre suf => by
    rw [semQF]; exact fragmentSem_marked pre suf (semQL_marked L parse bad env he frags)
theorem semQL_marked (L : GoLib) (parse : Str → Option (List Expr)) (bad : Val → Bool) (env : Nat → Sem) (he : ∀ r, Marked (env r)) :
    ∀ bs, ∀ f ∈ semQL L parse bad env bs, Marked f
  | [] => by simp [semQL]
  | b :: bs => by
    intro f hf
    rw [semQL] at hf
    rcases List.mem_cons.1 hf with rfl | hf
    · exact semQ_marked L parse bad env he b
    · exact semQL_marked L parse bad env he bs f hf
end

mutual
theorem sem_marked (L : GoLib) (parse : Str → Option (List Expr)) (bad : Val → Bool) : ∀ b, Marked (sem L parse bad b)
  | .frag f => by rw [sem]; exact semF_marked L parse bad f
  | .column _ f => by rw [sem]; exact semF_marked L parse bad f
  | .qb r => by unfold sem; exact fun log => cleanAt_same fun d hd => by cases hd
  | .table t => by unfold sem; exact fun log => cleanAt_same fun d hd => by cases hd; exact binds_ofStr _
  | .aliased n a => by unfold sem; exact fun log => cleanAt_same fun d hd => by cases hd; exact binds_ofStr _
  | .nilFrag => by unfold sem; exact fun log => cleanAt_same fun d hd => by cases hd; rfl
  | .columnNilFrag _ => by unfold sem; exact fun log => cleanAt_same fun d hd => by cases hd; rfl
  | .nilQb => by unfold sem; exact fun log => cleanAt_same fun d hd => by cases hd; rfl
  | .custom _ => by unfold sem; exact fun log => cleanAt_same fun d hd => by cases hd
  | .nil => by unfold sem; exact fun log => cleanAt_same fun d hd => by cases hd
  | .nilColumn => by unfold sem; exact fun log => cleanAt_same fun d hd => by cases hd
theorem semF_marked (L : GoLib) (parse : Str → Option (List Expr)) (bad : Val → Bool) : ∀ f, Marked (semF L parse bad f)
  | .mk raw args frags pre suf => by rw [semF]; exact fragmentSem_marked pre suf (semL_marked L parse bad frags)
theorem semL_marked (L : GoLib) (parse : Str → Option (List Expr)) (bad : Val → Bool) : ∀ bs, ∀ f ∈ semL L parse bad bs, Marked f
  | [] => by simp [semL]
  | b :: bs => by
    intro f hf
    rw [semL] at hf
    rcases List.mem_cons.1 hf with rfl | hf
    · exact sem_marked L parse bad b
    · exact semL_marked L parse bad bs f hf
end

/-! ## Query builders -/

theorem inList_marked {fs : List Sem} (h : ∀ f ∈ fs, Marked f) : CleanDocs PartOf (inList fs) := by
  induction fs with
  | nil => exact cleanDocs_nil
  | cons f fs ih =>
    have hc := cleanDocs_cons (h f (by simp)) (ih fun g hg => h g (by simp [hg]))
    intro log
    have h1 := hc log
    unfold SemOf.bind at h1
    unfold inList
    rcases e : f log with ⟨r, t⟩
    rw [e] at h1
    cases r with
    | ok d => exact h1
    | invalidIndex =>
      obtain ⟨δ, h3, -⟩ := h1
      dsimp only at h3 ⊢
      refine ⟨δ, h3, fun ds hd => ?_⟩
      split at hd
      · cases hd; exact partOf_left [] _
      · cases hd
    | error => exact h1
    | panic =>
      obtain ⟨δ, h3, -⟩ := h1
      exact ⟨δ, h3, fun ds hd => by cases hd⟩

theorem request_marked {child : Builder → Sem} (hc : ∀ b, Marked (child b)) (q : Request) : Marked (q.sem child) :=
  CleanRequest.sem ⟨⟨fun _ _ => hc _, fun _ _ => hc _, fun _ _ => hc _, fun cs _ => inList_marked fun f hf => by
    obtain ⟨c, -, rfl⟩ := List.mem_map.1 hf; exact hc c⟩, .inr (.inr partOf_comm)⟩

theorem qbSem_marked {child : Builder → Sem} (hc : ∀ b, Marked (child b)) (b : QB) : Marked (qbSem child b) := by
  unfold qbSem
  split
  · exact fun log => cleanAt_same fun d hd => by cases hd
  · split
    · exact request_marked hc _
    · exact fun log => cleanAt_same fun d hd => by cases hd
    · exact fun log => cleanAt_same fun d hd => by cases hd

theorem heapSem_marked (L : GoLib) (parse : Str → Option (List Expr)) (bad : Val → Bool) (heap : List QB) (depth r : Nat) :
    Marked (heapSem L parse bad heap depth r) := by
  induction depth generalizing r with
  | zero => exact fun log => cleanAt_same fun d hd => by cases hd
  | succ depth ih =>
    unfold heapSem
    cases heap[r]? with
    | none => exact fun log => cleanAt_same fun d hd => by cases hd
    | some b => exact qbSem_marked (semQ_marked L parse bad _ ih) b

theorem heapSemD_marked (L : GoLib) (parse : Str → Option (List Expr)) (bad : Val → Bool) (s0 : Store) (heap : List QB) (depth r : Nat) :
    Marked (heapSemD L parse bad s0 heap depth r) := by
  induction depth generalizing r with
  | zero => exact fun log => cleanAt_same fun d hd => by cases hd
  | succ depth ih =>
    unfold heapSemD
    cases heap[r]? with
    | none => exact fun log => cleanAt_same fun d hd => by cases hd
    | some b =>
      have h := qbSem_marked (semQ_marked L parse bad _ ih) b
      intro log
      obtain ⟨δ, h1, h2⟩ := h log
      dsimp only
      unfold SemOf.bind
      rcases e : qbSem (semQ L parse bad (heapSemD L parse bad s0 heap depth)) b log with ⟨x, t⟩
      rw [e] at h1 h2
      cases x with
      | ok d =>
        unfold printStep
        dsimp only at h1 h2 ⊢
        split
        · exact ⟨δ, h1, fun e he => by cases he⟩
        · exact ⟨δ, h1, h2⟩
      | _ => exact ⟨δ, h1, fun e he => by cases he⟩

/-- What it says of a build that starts with some values committed. -/
theorem Marked.binds {f : Sem} (h : Marked f) {log log' : List Val} {d : Doc} (hd : f log = (.ok d, log')) :
    (Spec.binds d).Nodup ∧ (∀ k ∈ Spec.binds d, log.length ≤ k ∧ k < log'.length) ∧
      (Spec.binds d).length + log.length ≤ log'.length := by
  obtain ⟨δ, h1, h2⟩ := h log
  rw [hd] at h1 h2
  dsimp only at h1
  have hw := h2 d rfl
  have hl := partOf_length hw
  rw [List.length_range'] at hl
  rw [h1, List.length_append]
  refine ⟨partOf_nodup hw List.nodup_range', fun k hk => ?_, by omega⟩
  have := List.mem_range'_1.1 (partOf_mem hw hk)
  exact ⟨this.1, by omega⟩

end Sqlf
