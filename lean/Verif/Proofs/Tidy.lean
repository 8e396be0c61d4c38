import Verif.Spec.Tidy
import Verif.Proofs.SemRel
import Verif.Proofs.Denote
/-!
# In tidy trees marks and committed values correspond one to one
-/

namespace Sqlf

open Spec

/-- How marks and committed values are compared: `Eq` (in order) or `List.Perm` (in any order). -/
class MarkRel (E : List Nat → List Nat → Prop) : Prop where
  refl : ∀ a, E a a
  trans : ∀ {a b c}, E a b → E b c → E a c
  app : ∀ {a b c d}, E a b → E c d → E (a ++ c) (b ++ d)

instance : MarkRel Eq := ⟨fun _ => rfl, Eq.trans, fun h h' => by rw [h, h']⟩

instance : MarkRel List.Perm := ⟨List.Perm.refl, List.Perm.trans, List.Perm.append⟩

theorem MarkRel.of_eq {E : List Nat → List Nat → Prop} [MarkRel E] {a b : List Nat} (h : a = b) : E a b :=
  h ▸ MarkRel.refl a

/-- The values committed by a step are exactly the marks of its result. -/
def CleanAt (E : List Nat → List Nat → Prop) (log : List Val) (r : Res Doc) (log' : List Val) : Prop :=
  ∃ δ, log' = log ++ δ ∧ ∀ d, r = .ok d → E (binds d) (List.range' log.length δ.length)

def CleanStep (E : List Nat → List Nat → Prop) (c : Step Doc) : Prop := ∀ s, CleanAt E s.log (c s).1 (c s).2.log

def CleanSem (E : List Nat → List Nat → Prop) (f : Sem) : Prop := ∀ log, CleanAt E log (f log).1 (f log).2

section
variable {E : List Nat → List Nat → Prop} [MarkRel E]

theorem cleanAt_same {log : List Val} {r : Res Doc} (h : ∀ d, r = .ok d → binds d = []) :
    CleanAt E log r log := ⟨[], by simp, fun d hd => MarkRel.of_eq (by simpa using h d hd)⟩

theorem clean_fail {r : Res Doc} (h : ∀ d, r ≠ .ok d) : CleanStep E (.fail r) :=
  fun _ => cleanAt_same fun d hd => absurd hd (h d)

theorem range'_add (a n m : Nat) : List.range' a n ++ List.range' (a + n) m = List.range' a (n + m) := by
  simp

theorem CleanStep.bind {c : Step Doc} {k : Doc → Step Doc} (hc : CleanStep E c)
    (hk : ∀ d s, ∃ δ, (k d s).2.log = s.log ++ δ ∧
      ∀ e, (k d s).1 = .ok e → E (binds e) (binds d ++ List.range' s.log.length δ.length)) :
    CleanStep E (.bind c k) := by
  intro s
  have h := hc s
  unfold Step.bind
  rcases hr : c s with ⟨r, s'⟩
  rw [hr] at h
  obtain ⟨δ, h1, h2⟩ := h
  cases r with
  | ok d =>
    obtain ⟨δ', h3, h4⟩ := hk d s'
    refine ⟨δ ++ δ', ?_, fun e he => ?_⟩
    · dsimp only at h1 ⊢; rw [h3, h1, List.append_assoc]
    · dsimp only at h1 he
      refine MarkRel.trans (h4 e he) (MarkRel.trans (MarkRel.app (h2 d rfl) (MarkRel.refl _)) (MarkRel.of_eq ?_))
      rw [h1, List.length_append, List.length_append, range'_add]
  | invalidIndex => exact ⟨δ, h1, fun d hd => by cases hd⟩
  | error => exact ⟨δ, h1, fun d hd => by cases hd⟩
  | panic => exact ⟨δ, h1, fun d hd => by cases hd⟩

theorem CleanStep.contain {c : Step Doc} (hc : CleanStep E c) : CleanStep E c.contain := by
  intro s
  have h := hc s
  unfold Step.contain
  rcases hr : c s with ⟨r, s'⟩
  rw [hr] at h
  obtain ⟨δ, h1, h2⟩ := h
  cases r with
  | ok d => exact ⟨δ, h1, h2⟩
  | invalidIndex => exact ⟨δ, h1, h2⟩
  | error => exact ⟨δ, h1, h2⟩
  | panic => exact ⟨δ, h1, fun d hd => by cases hd⟩

theorem argDoc_clean (bad : Val → Bool) (sc : Scope) (i : Int) : CleanStep E (argDoc bad sc i) := by
  intro s
  unfold argDoc
  cases item? i sc.args with
  | none => exact cleanAt_same fun d hd => by cases hd
  | some v =>
    simp only [commitDoc]
    split
    · exact cleanAt_same fun d hd => by cases hd
    · exact ⟨[v], rfl, fun d hd => by cases hd; exact MarkRel.refl _⟩

/-- The scope's fragments are clean and do not fail with an invalid index. -/
def CleanScope (E : List Nat → List Nat → Prop) (sc : Scope) : Prop :=
  ∀ f ∈ sc.frags, CleanSem E f ∧ ∀ log, (f log).1 ≠ .invalidIndex

theorem item?_mem {i : Int} {l : List α} {a : α} (h : item? i l = some a) : a ∈ l := by
  unfold item? at h
  split at h
  · exact List.mem_of_getElem? h
  · cases h

theorem item?_lt {i : Int} {l : List α} {a : α} (h : item? i l = some a) : 1 ≤ i ∧ i ≤ l.length := by
  unfold item? at h
  split at h
  · have := (List.getElem?_eq_some_iff.1 h).1; omega
  · cases h

theorem item?_some {i : Int} {l : List α} (h1 : 1 ≤ i) (h2 : i ≤ l.length) :
    ∃ a, item? i l = some a := by
  unfold item?
  rw [if_pos h1]
  exact ⟨l[(i - 1).toNat], List.getElem?_eq_getElem (by omega)⟩

theorem fragDoc_clean {sc : Scope} (hsc : CleanScope E sc) (i : Int) : CleanStep E (fragDoc sc i) := by
  intro s
  unfold fragDoc
  cases h : item? i sc.frags with
  | none => exact cleanAt_same fun d hd => by cases hd
  | some f => exact (hsc f (item?_mem h)).1 s.log

theorem exprDoc_clean {bad : Val → Bool} {sc : Scope} {call : Str → List CallArg → Step Doc}
    (e : Expr) (hc : ∀ name as, e = .call name as → CleanStep E (call name as)) :
    CleanStep E (exprDoc bad sc call e) := by
  cases e with
  | plain t => exact fun s => cleanAt_same fun d hd => by cases hd; exact binds_ofStr t
  | func f => exact clean_fail fun d hd => by cases hd
  | call name as => exact hc name as rfl
  | bindVar t i =>
    unfold exprDoc
    dsimp only
    split
    · exact clean_fail fun d hd => by cases hd
    · exact argDoc_clean bad sc i

theorem clauseDoc_clean {bad : Val → Bool} {sc : Scope} {call : Str → List CallArg → Step Doc}
    (es : List Expr) (hc : ∀ name as, .call name as ∈ es → CleanStep E (call name as)) :
    CleanStep E (clauseDoc bad sc call es) := by
  induction es with
  | nil => exact fun s => cleanAt_same fun d hd => by cases hd; rfl
  | cons e es ih =>
    refine (exprDoc_clean e fun name as he => hc name as (by simp [he])).bind fun d s => ?_
    have h := ih (fun name as hm => hc name as (by simp [hm])) s
    unfold Step.bind
    rcases hr : clauseDoc bad sc call es s with ⟨r, s'⟩
    rw [hr] at h
    obtain ⟨δ, h1, h2⟩ := h
    cases r with
    | ok d' =>
      refine ⟨δ, h1, fun e he => ?_⟩
      cases he
      rw [binds_append]
      exact MarkRel.app (MarkRel.refl _) (h2 d' rfl)
    | invalidIndex => exact ⟨δ, h1, fun d hd => by cases hd⟩
    | error => exact ⟨δ, h1, fun d hd => by cases hd⟩
    | panic => exact ⟨δ, h1, fun d hd => by cases hd⟩

/-! ## The iteration that ends a join -/

/-- A reference to an existing item does not fail with an invalid index. -/
theorem callDoc_list_valid {L : GoLib} {parse : Str → Option (List Expr)} {bad : Val → Bool}
    {sc : Scope} (hsc : CleanScope E sc) (depth : Nat) {g : Str} (hg : isListFunc g = true) {i : Int}
    (h1 : 1 ≤ i) (h2 : i ≤ listLen sc.args.length sc.frags.length g) (s : Session) :
    (callDoc L parse bad sc depth g [.int i] s).1 ≠ .invalidIndex := by
  unfold callDoc
  unfold listLen at h2
  by_cases ha : g = lit "arg"
  · rw [if_pos ha] at h2 ⊢
    obtain ⟨v, hv⟩ := item?_some h1 h2
    simp only [indexArg, Step.contain, argDoc, hv, commitDoc]
    by_cases hb : bad v = true <;> simp [hb]
  · rw [if_neg ha] at h2 ⊢
    have hf : g = lit "f" ∨ g = lit "fragment" := by
      simp only [isListFunc, Bool.or_eq_true, decide_eq_true_eq] at hg
      rcases hg with (h | h) | h
      · exact absurd h ha
      · exact .inl h
      · exact .inr h
    rw [if_pos hf]
    obtain ⟨f, hf⟩ := item?_some h1 h2
    simp only [indexArg, Step.contain, fragDoc, hf]
    have := (hsc f (item?_mem hf)).2 s.log
    revert this
    cases (f s.log).1 <;> simp

/-- A reference to a missing item fails with an invalid index and commits nothing. -/
theorem callDoc_list_invalid {L : GoLib} {parse : Str → Option (List Expr)} {bad : Val → Bool}
    {sc : Scope} (depth : Nat) {g : Str} (hg : isListFunc g = true) {i : Int}
    (h : ¬ (1 ≤ i ∧ i ≤ listLen sc.args.length sc.frags.length g)) (s : Session) :
    callDoc L parse bad sc depth g [.int i] s = (.invalidIndex, s) := by
  unfold callDoc
  unfold listLen at h
  by_cases ha : g = lit "arg"
  · rw [if_pos ha] at h ⊢
    have : item? i sc.args = none := by
      cases hv : item? i sc.args with
      | none => rfl
      | some v => exact absurd (item?_lt hv) h
    simp [indexArg, Step.contain, argDoc, this, Step.fail]
  · rw [if_neg ha] at h ⊢
    have hf : g = lit "f" ∨ g = lit "fragment" := by
      simp only [isListFunc, Bool.or_eq_true, decide_eq_true_eq] at hg
      rcases hg with (h | h) | h
      · exact absurd h ha
      · exact .inl h
      · exact .inr h
    rw [if_pos hf]
    have : item? i sc.frags = none := by
      cases hv : item? i sc.frags with
      | none => rfl
      | some v => exact absurd (item?_lt hv) h
    simp [indexArg, Step.contain, fragDoc, this, Step.fail]

/-- A clause of references to existing items does not fail with an invalid index. -/
theorem clauseDoc_valid {L : GoLib} {parse : Str → Option (List Expr)} {bad : Val → Bool}
    {sc : Scope} (hsc : CleanScope E sc) (depth : Nat) {es : List Expr} {i : Int} (h1 : 1 ≤ i)
    (hall : (bareFuncs es).all isListFunc = true)
    (hes : ∀ e ∈ es, match e with
      | .func h => i ≤ listLen sc.args.length sc.frags.length h
      | .call _ _ => False
      | _ => True) (s : Session) :
    (clauseDoc bad sc (callDoc L parse bad sc depth) (atIndex i es) s).1 ≠ .invalidIndex := by
  induction es generalizing s with
  | nil => simp [atIndex, clauseDoc, Step.pure]
  | cons e es ih =>
    have hes' := fun e' (h : e' ∈ es) => hes e' (by simp [h])
    have he := hes e (by simp)
    have hall' : (bareFuncs es).all isListFunc = true := by
      cases e <;> simp_all [bareFuncs]
    have hx : ∃ e', atIndex i (e :: es) = e' :: atIndex i es ∧
        ∀ s, (exprDoc bad sc (callDoc L parse bad sc depth) e' s).1 ≠ .invalidIndex := by
      cases e with
      | plain t => exact ⟨_, rfl, fun s => by simp [exprDoc, Step.pure]⟩
      | call n as => exact he.elim
      | bindVar t j =>
        refine ⟨_, rfl, fun s => ?_⟩
        simp only [exprDoc]
        cases hv : item? j sc.args with
        | none => simp [Step.fail]
        | some v =>
          simp only [argDoc, hv, commitDoc]
          by_cases hb : bad v = true <;> simp [hb]
      | func g =>
        refine ⟨_, rfl, fun s => ?_⟩
        have hg : isListFunc g = true := by simp [bareFuncs] at hall; exact hall.1
        exact callDoc_list_valid hsc depth hg h1 he s
    obtain ⟨e', hx1, hx2⟩ := hx
    rw [hx1]
    unfold clauseDoc
    have h := hx2 s
    unfold Step.bind
    rcases hr : exprDoc bad sc (callDoc L parse bad sc depth) e' s with ⟨r, s'⟩
    rw [hr] at h
    cases r with
    | ok d =>
      have h' := ih hall' hes' s'
      dsimp only
      rcases hr' : clauseDoc bad sc (callDoc L parse bad sc depth) (atIndex i es) s' with ⟨r', s''⟩
      rw [hr'] at h'
      cases r' <;> simp_all [Step.pure]
    | invalidIndex => exact absurd rfl h
    | error => simp
    | panic => simp

/-- In a tidy template nothing is committed if an index is invalid. -/
theorem clauseDoc_tidy {L : GoLib} {parse : Str → Option (List Expr)} {bad : Val → Bool}
    {sc : Scope} (hsc : CleanScope E sc) (depth : Nat) {es : List Expr} {i : Int} (h1 : 1 ≤ i)
    (hall : (bareFuncs es).all isListFunc = true)
    (ht : tidyItems sc.args.length sc.frags.length es = true) (s s' : Session)
    (h : clauseDoc bad sc (callDoc L parse bad sc depth) (atIndex i es) s = (.invalidIndex, s')) :
    s' = s := by
  induction es generalizing s with
  | nil => simp [atIndex, clauseDoc, Step.pure] at h
  | cons e es ih =>
    cases e with
    | plain t =>
      have hall' : (bareFuncs es).all isListFunc = true := by simpa [bareFuncs] using hall
      simp only [atIndex, clauseDoc, exprDoc, Step.pure, Step.bind] at h
      rcases hr : clauseDoc bad sc (callDoc L parse bad sc depth) (atIndex i es) s with ⟨r, s1⟩
      rw [hr] at h
      cases r with
      | ok d => simp at h
      | invalidIndex =>
        simp only [Prod.mk.injEq, true_and] at h
        subst h
        exact ih hall' ht s hr
      | error => simp at h
      | panic => simp at h
    | call n as => simp [tidyItems] at ht
    | bindVar t j => simp [tidyItems] at ht
    | func g =>
      simp only [bareFuncs, List.all_cons, Bool.and_eq_true] at hall
      simp only [tidyItems, List.all_eq_true] at ht
      by_cases hin : 1 ≤ i ∧ i ≤ listLen sc.args.length sc.frags.length g
      · exfalso
        have hv := clauseDoc_valid (L := L) (parse := parse) (bad := bad) hsc depth
          (es := .func g :: es) h1 (by simp [bareFuncs, hall]) ?_ s
        · rw [h] at hv; exact hv rfl
        · intro e he
          rcases List.mem_cons.1 he with rfl | he
          · exact hin.2
          · have := ht e he
            cases e with
            | func h' =>
              simp only [decide_eq_true_eq] at this
              dsimp only
              omega
            | call _ _ => simp at this
            | _ => trivial
      · simp only [atIndex, clauseDoc, exprDoc, Step.bind] at h
        rw [callDoc_list_invalid depth hall.1 hin] at h
        simp at h
        exact h.symm

theorem bareFuncs_atIndex_calls {es : List Expr} {i : Int} {name : Str} {as : List CallArg}
    (h : .call name as ∈ atIndex i es) :
    .call name as ∈ es ∨ (name ∈ bareFuncs es ∧ as = [.int i]) := by
  induction es with
  | nil => simp [atIndex] at h
  | cons e es ih =>
    cases e <;> simp_all [atIndex, bareFuncs] <;> grind

theorem itemsDoc_clean {eval : List Expr → Step Doc} {es : List Expr} (sep : Str) (first to : Int)
    (hc : ∀ i, 1 ≤ i → CleanStep E (eval (atIndex i es)))
    (hi : ∀ i, 1 ≤ i → ∀ s s', eval (atIndex i es) s = (.invalidIndex, s') → s' = s)
    (n : Nat) (i : Int) (h1 : 1 ≤ i) (acc : Doc) (s : Session) :
    ∃ δ, (itemsDoc eval es sep first to n i acc s).2.log = s.log ++ δ ∧
      ∀ e, (itemsDoc eval es sep first to n i acc s).1 = .ok e →
        E (binds e) (binds acc ++ List.range' s.log.length δ.length) := by
  induction n generalizing i acc s with
  | zero => exact ⟨[], by simp [itemsDoc, Step.fail], fun e he => by simp [itemsDoc, Step.fail] at he⟩
  | succ n ih =>
    unfold itemsDoc
    have h := hc i h1 s
    have h2 := hi i h1 s
    rcases hr : eval (atIndex i es) s with ⟨r, s'⟩
    rw [hr] at h h2
    obtain ⟨δ, h3, h4⟩ := h
    cases r with
    | ok d =>
      dsimp only at h3 h4 ⊢
      split
      · refine ⟨δ, h3, fun e he => ?_⟩
        cases he
        rw [binds_joinDoc]
        exact MarkRel.app (MarkRel.refl _) (h4 d rfl)
      · obtain ⟨δ', h5, h6⟩ := ih (i + 1) (by omega) (joinDoc sep acc d) s'
        refine ⟨δ ++ δ', by rw [h5, h3, List.append_assoc], fun e he => ?_⟩
        refine MarkRel.trans (h6 e he) ?_
        rw [binds_joinDoc, h3, List.length_append, List.length_append, List.append_assoc, ← range'_add]
        exact MarkRel.app (MarkRel.refl _) (MarkRel.app (h4 d rfl) (MarkRel.refl _))
    | invalidIndex =>
      have := h2 s' rfl
      subst this
      dsimp only
      split
      · exact ⟨[], by simp, fun e he => by cases he⟩
      · exact ⟨[], by simp, fun e he => by cases he; exact MarkRel.of_eq (by simp)⟩
    | error => exact ⟨δ, h3, fun e he => by cases he⟩
    | panic => exact ⟨δ, h3, fun e he => by cases he⟩

theorem callDoc_index_clean {L : GoLib} {parse : Str → Option (List Expr)} {bad : Val → Bool}
    {sc : Scope} (hsc : CleanScope E sc) (depth : Nat) {name : Str} (hn : name ≠ lit "join")
    (as : List CallArg) : CleanStep E (callDoc L parse bad sc depth name as) := by
  unfold callDoc
  split
  · split
    · exact clean_fail fun d hd => by cases hd
    · exact (argDoc_clean bad sc _).contain
  · split
    · split
      · exact clean_fail fun d hd => by cases hd
      · exact (fragDoc_clean hsc _).contain
    · exact clean_fail fun d hd => by cases hd

theorem tidyItems_no_call {nA nF : Nat} {es : List Expr} (h : tidyItems nA nF es = true)
    {name : Str} {as : List CallArg} : .call name as ∉ es := by
  induction es with
  | nil => simp
  | cons e es ih =>
    cases e with
    | plain t => simpa using ih h
    | call _ _ => simp [tidyItems] at h
    | bindVar _ _ => simp [tidyItems] at h
    | func g =>
      simp only [tidyItems, List.all_eq_true] at h
      intro hm
      rcases List.mem_cons.1 hm with h' | h'
      · cases h'
      · have := h _ h'; simp at this

theorem callDoc_clean {L : GoLib} {parse : Str → Option (List Expr)} {bad : Val → Bool}
    {sc : Scope} (hsc : CleanScope E sc) (depth : Nat) (name : Str) (as : List CallArg)
    (htidy : name = lit "join" → ∀ t sep is, joinArgs L as = .ok (t, sep, is) →
      ∀ es', parse t = some es' → tidyItems sc.args.length sc.frags.length es' = true) :
    CleanStep E (callDoc L parse bad sc depth name as) := by
  by_cases hn : name = lit "join"
  · have h1 : ¬ name = lit "arg" := by rw [hn]; decide
    have h2 : ¬ (name = lit "f" ∨ name = lit "fragment") := by rw [hn]; decide
    unfold callDoc
    rw [if_neg h1, if_neg h2, if_pos hn]
    cases hj : joinArgs L as with
    | ok r =>
      obtain ⟨t, sep, is⟩ := r
      cases depth with
      | zero => exact clean_fail fun d hd => by cases hd
      | succ depth =>
        refine CleanStep.contain ?_
        unfold joinCall
        split
        · exact clean_fail fun d hd => by cases hd
        · dsimp only
          split
          · exact clean_fail fun d hd => by cases hd
          · split
            · exact clean_fail fun d hd => by cases hd
            · rename_i es hp
              split
              · exact clean_fail fun d hd => by cases hd
              · rename_i hb
                have hall : (bareFuncs es).all isListFunc = true := by
                  cases h : (bareFuncs es).all isListFunc
                  · simp [h] at hb
                  · rfl
                have htd := htidy hn t sep is hj es hp
                have hcl : ∀ i, 1 ≤ i → CleanStep E
                    (clauseDoc bad sc (callDoc L parse bad sc depth) (atIndex i es)) := by
                  intro i _
                  refine clauseDoc_clean _ fun name as hm => ?_
                  rcases bareFuncs_atIndex_calls hm with h | ⟨h, -⟩
                  · exact absurd h (tidyItems_no_call htd)
                  · refine callDoc_index_clean hsc depth ?_ as
                    rintro rfl
                    rw [List.all_eq_true] at hall
                    have := hall _ h
                    revert this; decide
                intro s
                have := itemsDoc_clean sep (is.getD 0 0) (is.getD 1 0) hcl
                  (fun i hi s s' h => clauseDoc_tidy hsc depth hi hall htd s s' h)
                  (max sc.args.length sc.frags.length + 1)
                  (if is.getD 0 0 ≤ 0 then 1 else is.getD 0 0) (by split <;> omega) [] s
                simpa [CleanAt, binds] using this
    | invalidIndex => exact clean_fail fun d hd => by cases hd
    | error => exact clean_fail fun d hd => by cases hd
    | panic => exact clean_fail fun d hd => by cases hd
  · exact callDoc_index_clean hsc depth hn as

/-- What `tidyClause` says about a join. -/
theorem tidyClause_join {L : GoLib} {parse : Str → Option (List Expr)} {nA nF : Nat}
    {es : List Expr} (h : tidyClause L parse nA nF es = true) {as : List CallArg}
    (hm : .call (lit "join") as ∈ es) {t sep : Str} {is : List Int}
    (hj : joinArgs L as = .ok (t, sep, is)) {es' : List Expr} (hp : parse t = some es') :
    tidyItems nA nF es' = true := by
  unfold tidyClause at h
  rw [List.all_eq_true] at h
  have := h _ hm
  simpa [hj, hp] using this

theorem fragmentSem_clean {L : GoLib} {parse : Str → Option (List Expr)} {bad : Val → Bool}
    {raw : Str} {args : List Val} {frags : List Sem} (pre suf : Str)
    (hf : ∀ f ∈ frags, CleanSem E f ∧ ∀ log, (f log).1 ≠ .invalidIndex)
    (ht : ∀ es, parse raw = some es → tidyClause L parse args.length frags.length es = true) :
    CleanSem E (fragmentSem L parse bad raw args frags pre suf) := by
  intro log
  unfold fragmentSem
  cases hp : parse raw with
  | none => exact cleanAt_same fun d hd => by cases hd
  | some es =>
    have hsc : CleanScope E ⟨args, frags⟩ := hf
    have h := clauseDoc_clean (bad := bad) (sc := ⟨args, frags⟩)
      (call := callDoc L parse bad ⟨args, frags⟩ raw.length) es
      (fun name as hm => callDoc_clean hsc raw.length name as fun hn t sep is hj es' hp' =>
        tidyClause_join (ht es hp) (by rw [← hn]; exact hm) hj hp') ⟨log, []⟩
    dsimp only
    rcases hr : clauseDoc bad ⟨args, frags⟩ (callDoc L parse bad ⟨args, frags⟩ raw.length) es
      ⟨log, []⟩ with ⟨r, s⟩
    rw [hr] at h
    obtain ⟨δ, h1, h2⟩ := h
    cases r with
    | ok d =>
      dsimp only
      split
      · exact ⟨δ, h1, fun e he => by cases he; rw [binds_decorateDoc]; exact h2 d rfl⟩
      · exact ⟨δ, h1, fun e he => by cases he⟩
    | invalidIndex => exact ⟨δ, h1, fun e he => by cases he⟩
    | error => exact ⟨δ, h1, fun e he => by cases he⟩
    | panic => exact ⟨δ, h1, fun e he => by cases he⟩

mutual
theorem tidy_isTree (L : GoLib) (parse : Str → Option (List Expr)) (bad : Val → Bool) :
    ∀ b, tidy L parse bad b = true → IsTree b
  | .frag f, h => by rw [IsTree]; rw [tidy] at h; exact tidyF_isTree L parse bad f h
  | .column _ f, h => by rw [IsTree]; rw [tidy] at h; exact tidyF_isTree L parse bad f h
  | .custom _, h => by simp [tidy] at h
  | .qb _, h => by simp [tidy] at h
  | .table _, _ | .aliased _ _, _ | .nil, _ | .nilFrag, _ | .nilColumn, _ | .columnNilFrag _, _
  | .nilQb, _ => by simp [IsTree]
theorem tidyF_isTree (L : GoLib) (parse : Str → Option (List Expr)) (bad : Val → Bool) :
    ∀ f, tidyF L parse bad f = true → IsTreeF f
  | .mk raw args frags pre suf, h => by
    rw [IsTreeF]; rw [tidyF, Bool.and_eq_true] at h; exact tidyL_isTree L parse bad frags h.2
theorem tidyL_isTree (L : GoLib) (parse : Str → Option (List Expr)) (bad : Val → Bool) :
    ∀ bs, tidyL L parse bad bs = true → IsTreeL bs
  | [], _ => by simp [IsTreeL]
  | b :: bs, h => by
    rw [IsTreeL]; rw [tidyL, Bool.and_eq_true, Bool.and_eq_true, decide_eq_true_eq] at h
    exact ⟨tidy_isTree L parse bad b h.1.1, tidyL_isTree L parse bad bs h.2⟩
end

mutual
theorem sem_clean (L : GoLib) (parse : Str → Option (List Expr)) (bad : Val → Bool) :
    ∀ b, tidy L parse bad b = true → CleanSem E (sem L parse bad b)
  | .frag f, h => by rw [tidy] at h; rw [sem]; exact semF_clean L parse bad f h
  | .column _ f, h => by rw [tidy] at h; rw [sem]; exact semF_clean L parse bad f h
  | .custom _, h => by simp [tidy] at h
  | .qb _, h => by simp [tidy] at h
  | .table t, _ => by unfold sem; exact fun log => cleanAt_same fun d hd => by cases hd; exact binds_ofStr _
  | .aliased n a, _ => by unfold sem; exact fun log => cleanAt_same fun d hd => by cases hd; exact binds_ofStr _
  | .nilFrag, _ => by unfold sem; exact fun log => cleanAt_same fun d hd => by cases hd; rfl
  | .columnNilFrag _, _ => by unfold sem; exact fun log => cleanAt_same fun d hd => by cases hd; rfl
  | .nilQb, _ => by unfold sem; exact fun log => cleanAt_same fun d hd => by cases hd; rfl
  | .nil, _ => by unfold sem; exact fun log => cleanAt_same fun d hd => by cases hd
  | .nilColumn, _ => by unfold sem; exact fun log => cleanAt_same fun d hd => by cases hd
theorem semF_clean (L : GoLib) (parse : Str → Option (List Expr)) (bad : Val → Bool) :
    ∀ f, tidyF L parse bad f = true → CleanSem E (semF L parse bad f)
  | .mk raw args frags pre suf, h => by
    rw [tidyF, Bool.and_eq_true] at h
    rw [semF]
    refine fragmentSem_clean pre suf (semL_clean L parse bad frags h.2) ?_
    intro es hp
    have h1 := h.1
    rw [hp] at h1
    rw [semL_length]; exact h1
theorem semL_clean (L : GoLib) (parse : Str → Option (List Expr)) (bad : Val → Bool) :
    ∀ bs, tidyL L parse bad bs = true → ∀ f ∈ semL L parse bad bs,
      CleanSem E f ∧ ∀ log, (f log).1 ≠ .invalidIndex
  | [], _ => by simp [semL]
  | b :: bs, h => by
    rw [tidyL, Bool.and_eq_true, Bool.and_eq_true, decide_eq_true_eq] at h
    intro f hf
    rw [semL] at hf
    rcases List.mem_cons.1 hf with rfl | hf
    · refine ⟨sem_clean L parse bad b h.1.1, fun log => ?_⟩
      obtain ⟨δ, -, -, hr⟩ := sem_uniform L parse bad b (tidy_isTree L parse bad b h.1.1) log []
      have h0 := h.1.2
      revert hr h0
      generalize (sem L parse bad b log).1 = r1
      generalize (sem L parse bad b []).1 = r2
      intro h0 hr
      cases r1 <;> cases r2 <;> simp_all [ResR]
    · exact semL_clean L parse bad bs h.2 f hf
end

end

end Sqlf
