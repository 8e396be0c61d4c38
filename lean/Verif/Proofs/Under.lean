import Verif.Proofs.HeapSim
/-!
# Meanings that agree unless one of them fails

`Under H f g`: `f` and `g` are the same, but `f` may fail (with an error that is not `ErrInvalidIndex`, or a
panic) where `g` does not, if `H` holds of the values committed by then.  Everything that is made from builders keeps this relation.
-/

namespace Sqlf

open Spec

/-- A failure that is always passed on. -/
def Hard : Res α → Prop
  | .error => True
  | .panic => True
  | _ => False

def Under (H : List Val → Prop) (f g : SemOf α) : Prop := ∀ log, f log = g log ∨ H (f log).2 ∧ Hard (f log).1

def UnderStep (H : List Val → Prop) (f g : Step α) : Prop := ∀ s, f s = g s ∨ H (f s).2.log ∧ Hard (f s).1

section
variable {H : List Val → Prop}

theorem Under.refl (f : SemOf α) : Under H f f := fun _ => .inl rfl

theorem UnderStep.refl (f : Step α) : UnderStep H f f := fun _ => .inl rfl

theorem under_false {f g : SemOf α} : Under (fun _ => False) f g ↔ f = g := by
  constructor
  · intro h; funext log
    rcases h log with h | h
    · exact h
    · exact h.1.elim
  · rintro rfl; exact .refl f

theorem Under.bind {f f' : SemOf α} {k k' : α → SemOf β} (h : Under H f f') (hk : ∀ a, Under H (k a) (k' a)) :
    Under H (SemOf.bind f k) (SemOf.bind f' k') := by
  intro log
  unfold SemOf.bind
  rcases h log with h | ⟨hH, h⟩
  · rw [← h]
    rcases f log with ⟨r, log'⟩
    cases r with
    | ok a => exact hk a log'
    | _ => exact .inl rfl
  · right
    revert hH h
    rcases f log with ⟨r, log'⟩
    cases r <;> simp [Hard]

theorem UnderStep.bind {f f' : Step α} {k k' : α → Step β} (h : UnderStep H f f') (hk : ∀ a, UnderStep H (k a) (k' a)) :
    UnderStep H (f.bind k) (f'.bind k') := by
  intro s
  unfold Step.bind
  rcases h s with h | ⟨hH, h⟩
  · rw [← h]
    rcases f s with ⟨r, s'⟩
    cases r with
    | ok a => exact hk a s'
    | _ => exact .inl rfl
  · right
    revert hH h
    rcases f s with ⟨r, s'⟩
    cases r <;> simp [Hard]

theorem UnderStep.contain {f f' : Step α} (h : UnderStep H f f') : UnderStep H f.contain f'.contain := by
  intro s
  unfold Step.contain
  rcases h s with h | ⟨hH, h⟩
  · rw [← h]; exact .inl rfl
  · right
    revert hH h
    rcases f s with ⟨r, s'⟩
    cases r <;> simp [Hard]

theorem fragDoc_under {args : List Val} {fs gs : List Sem} (h : Pointwise (Under H) fs gs) (i : Int) :
    UnderStep H (fragDoc ⟨args, fs⟩ i) (fragDoc ⟨args, gs⟩ i) := by
  unfold fragDoc item?
  dsimp only
  by_cases hi : 1 ≤ i
  · simp only [if_pos hi]
    rcases h.get (i - 1).toNat with ⟨h1, h2⟩ | ⟨f, g, h1, h2, h3⟩
    · rw [h1, h2]; exact .refl _
    · rw [h1, h2]
      intro s
      dsimp only
      rcases h3 s.log with h | h
      · rw [h]; exact .inl rfl
      · exact .inr h
  · simp only [if_neg hi]; exact .refl _

theorem clauseDoc_under (bad : Val → Bool) {args : List Val} {fs gs : List Sem}
    {call call' : Str → List CallArg → Step Doc} (hc : ∀ n as, UnderStep H (call n as) (call' n as)) (es : List Expr) :
    UnderStep H (clauseDoc bad ⟨args, fs⟩ call es) (clauseDoc bad ⟨args, gs⟩ call' es) := by
  induction es with
  | nil => exact .refl _
  | cons e es ih =>
    rw [clauseDoc, clauseDoc]
    refine .bind ?_ fun d => .bind ih fun d' => .refl _
    cases e with
    | plain t => exact .refl _
    | bindVar st i => exact .refl _
    | call n as => exact hc n as
    | func n => exact .refl _

theorem itemsDoc_under {eval eval' : List Expr → Step Doc} (he : ∀ es, UnderStep H (eval es) (eval' es))
    (es : List Expr) (sep : Str) (first to : Int) (n : Nat) : ∀ i acc,
    UnderStep H (itemsDoc eval es sep first to n i acc) (itemsDoc eval' es sep first to n i acc) := by
  induction n with
  | zero => intro i acc; exact .refl _
  | succ n ih =>
    intro i acc s
    unfold itemsDoc
    rcases he (atIndex i es) s with h | ⟨hH, h⟩
    · rw [← h]
      rcases eval (atIndex i es) s with ⟨r, s'⟩
      cases r with
      | ok d =>
        dsimp only
        split
        · exact .inl rfl
        · exact ih _ _ s'
      | _ => exact .inl rfl
    · right
      revert hH h
      rcases eval (atIndex i es) s with ⟨r, s'⟩
      cases r <;> simp [Hard]

theorem joinCall_under (parse : Str → Option (List Expr)) {eval eval' : List Expr → Step Doc}
    (he : ∀ es, UnderStep H (eval es) (eval' es)) (items : Nat) (tmpl sep : Str) (is : List Int) :
    UnderStep H (joinCall parse eval items tmpl sep is) (joinCall parse eval' items tmpl sep is) := by
  unfold joinCall
  split
  · exact .refl _
  · dsimp only
    split
    · exact .refl _
    · split
      · exact .refl _
      · split
        · exact .refl _
        · exact itemsDoc_under he _ _ _ _ _ _ _

theorem callDoc_under (L : GoLib) (parse : Str → Option (List Expr)) (bad : Val → Bool) {args : List Val}
    {fs gs : List Sem} (h : Pointwise (Under H) fs gs) (depth : Nat) : ∀ n as,
    UnderStep H (callDoc L parse bad ⟨args, fs⟩ depth n as) (callDoc L parse bad ⟨args, gs⟩ depth n as) := by
  induction depth with
  | zero =>
    intro n as
    unfold callDoc
    split
    · exact .refl _
    · split
      · split
        · exact .refl _
        · exact (fragDoc_under h _).contain
      · exact .refl _
  | succ depth ih =>
    intro n as
    unfold callDoc
    split
    · exact .refl _
    · split
      · split
        · exact .refl _
        · exact (fragDoc_under h _).contain
      · split
        · split
          · dsimp only
            rw [h.length]
            exact (joinCall_under parse (fun es => clauseDoc_under bad ih es) _ _ _ _).contain
          · exact .refl _
          · exact .refl _
        · exact .refl _

theorem fragmentSem_under (L : GoLib) (parse : Str → Option (List Expr)) (bad : Val → Bool) (raw : Str)
    (args : List Val) {fs gs : List Sem} (h : Pointwise (Under H) fs gs) (pre suf : Str) :
    Under H (fragmentSem L parse bad raw args fs pre suf) (fragmentSem L parse bad raw args gs pre suf) := by
  intro log
  unfold fragmentSem
  cases parse raw with
  | none => exact .inl rfl
  | some es =>
    dsimp only
    rw [h.length]
    rcases clauseDoc_under bad (fun n as => callDoc_under L parse bad (args := args) h raw.length n as) es ⟨log, []⟩
      with he | ⟨hH, he⟩
    · rw [he]; exact .inl rfl
    · right
      revert hH he
      rcases clauseDoc bad ⟨args, fs⟩ (callDoc L parse bad ⟨args, fs⟩ raw.length) es ⟨log, []⟩ with ⟨r, s⟩
      cases r <;> simp [Hard]

mutual
theorem semQ_under (L : GoLib) (parse : Str → Option (List Expr)) (bad : Val → Bool) {env env' : Nat → Sem} :
    ∀ b : Builder, (∀ r ∈ qbRefs b, Under H (env r) (env' r)) →
      Under H (semQ L parse bad env b) (semQ L parse bad env' b)
  | .frag f, h => by rw [semQ, semQ]; exact semQF_under L parse bad f h
  | .column _ f, h => by rw [semQ, semQ]; exact semQF_under L parse bad f h
  | .table t, _ => by rw [semQ, semQ]; exact .refl (α := Doc) _
  | .aliased n a, _ => by rw [semQ, semQ]; exact .refl (α := Doc) _
  | .nil, _ => by simp only [semQ]; exact .refl (α := Doc) _
  | .nilFrag, _ => by simp only [semQ]; exact .refl (α := Doc) _
  | .nilColumn, _ => by simp only [semQ]; exact .refl (α := Doc) _
  | .columnNilFrag _, _ => by simp only [semQ]; exact .refl (α := Doc) _
  | .nilQb, _ => by simp only [semQ]; exact .refl (α := Doc) _
  | .qb r, h => by rw [semQ, semQ]; exact h r (by simp [qbRefs])
  | .custom _, _ => by simp only [semQ]; exact .refl (α := Doc) _
theorem semQF_under (L : GoLib) (parse : Str → Option (List Expr)) (bad : Val → Bool) {env env' : Nat → Sem} :
    ∀ f : Fragment, (∀ r ∈ qbRefsF f, Under H (env r) (env' r)) →
      Under H (semQF L parse bad env f) (semQF L parse bad env' f)
  | .mk raw args frags pre suf, h => by
    rw [semQF, semQF]
    exact fragmentSem_under L parse bad raw args (semQL_under L parse bad frags h) pre suf
theorem semQL_under (L : GoLib) (parse : Str → Option (List Expr)) (bad : Val → Bool) {env env' : Nat → Sem} :
    ∀ bs : List Builder, (∀ r ∈ qbRefsL bs, Under H (env r) (env' r)) →
      Pointwise (Under H) (semQL L parse bad env bs) (semQL L parse bad env' bs)
  | [], _ => .nil
  | b :: bs, h => by
    simp only [qbRefsL, List.mem_append] at h
    rw [semQL, semQL]
    exact .cons (semQ_under L parse bad b fun r hr => h r (.inl hr)) (semQL_under L parse bad bs fun r hr => h r (.inr hr))
end

theorem inTurn_under {fs gs : List Sem} (h : Pointwise (Under H) fs gs) : Under H (inTurn fs) (inTurn gs) := by
  induction h with
  | nil => exact .refl _
  | cons h _ ih => exact .bind h fun d => .bind ih fun ds => .refl _

theorem inList_under {fs gs : List Sem} (h : Pointwise (Under H) fs gs) : Under H (inList fs) (inList gs) := by
  induction h with
  | nil => exact .refl _
  | @cons f g fs gs h hs ih =>
    intro log
    unfold inList
    rcases h log with he | ⟨hH, he⟩
    · rw [← he]
      rcases f log with ⟨r, log'⟩
      cases r with
      | ok d => exact Under.bind (k := fun ds => SemOf.pure (d :: ds)) ih (fun ds => .refl _) log'
      | invalidIndex =>
        left
        dsimp only
        have : fs = [] ↔ gs = [] := by rw [← List.length_eq_zero_iff, hs.length, List.length_eq_zero_iff]
        by_cases hn : fs = []
        · rw [if_pos hn, if_pos (this.1 hn)]
        · rw [if_neg hn, if_neg fun h => hn (this.2 h)]
      | _ => exact .inl rfl
    · right
      revert hH he
      rcases f log with ⟨r, log'⟩
      cases r <;> simp [Hard]

theorem map_under {child child' : β → Sem} {bs : List β} (h : ∀ b ∈ bs, Under H (child b) (child' b)) :
    Pointwise (Under H) (bs.map child) (bs.map child') := by
  induction bs with
  | nil => exact .nil
  | cons b bs ih => exact .cons (h b (by simp)) (ih fun b hb => h b (by simp [hb]))

theorem qbSem_under {child child' : Builder → Sem} {b : QB} (h : ∀ c ∈ allBuilders b, Under H (child c) (child' c)) :
    Under H (qbSem child b) (qbSem child' b) := by
  unfold qbSem
  split
  · exact .refl _
  · cases b.collectDependencies with
    | ok deps =>
      simp only [allBuilders, List.mem_append] at h
      dsimp only
      unfold Request.sem requestOf
      dsimp only
      refine .bind (inTurn_under (map_under fun c hc => h _ ?_)) fun qs => ?_
      · simp only [List.mem_filter] at hc; simp [List.mem_map_of_mem hc.1]
      refine .bind (inTurn_under (map_under fun c hc => h _ ?_)) fun ts => ?_
      · simp only [List.mem_filter] at hc; simp [List.mem_map_of_mem hc.1]
      refine .bind (inList_under (map_under fun c hc => h _ (by simp [hc]))) fun ws => ?_
      refine .bind (inList_under (map_under fun c hc => h _ (by simp [hc]))) fun gs => ?_
      refine .bind (inList_under (map_under fun c hc => h _ (by simp [hc]))) fun os => ?_
      refine .bind (inList_under (map_under fun c hc => h _ (by simp [hc]))) fun ss => ?_
      refine .bind (inList_under (map_under fun c hc => h _ ?_)) fun xs => ?_
      · simp only [List.mem_append] at hc; rcases hc with hc | hc <;> simp [hc]
      split
      · exact .refl _
      · exact .bind (inTurn_under (map_under fun c hc => h _ (by simp [hc]))) fun us => .refl _
    | _ => exact .refl _

end

/-! ## Query builders with and without debug output -/

theorem NestedIn.mono {P Q : QB → Prop} (h : ∀ b, P b → Q b) {heap : List QB} {d r : Nat} (hn : NestedIn P heap d r) :
    NestedIn Q heap d r := by
  induction d generalizing r with
  | zero => exact hn
  | succ d ih =>
    obtain ⟨b, h1, h2, h3⟩ := hn
    exact ⟨b, h1, h b h2, fun r' hr => ih (h3 r' hr)⟩

theorem Spec.Nestable.d {L : GoLib} {b : QB} (h : Nestable L b) : NestableD L b := by
  obtain ⟨cs, h1, h2, -, h4⟩ := h
  exact ⟨cs, h1, h2, h4⟩

theorem Spec.QueryAt.d {L : GoLib} {heap : List QB} {d r : Nat} (h : QueryAt L heap d r) : QueryAtD L heap d r := by
  obtain ⟨b, cs, h1, h2, -, h4, h5⟩ := h
  exact ⟨b, cs, h1, h2, h4, fun r hr => NestedIn.mono (fun _ h => h.d) (h5 r hr)⟩

theorem printStep_off (L : GoLib) (s0 : Store) (d : Doc) : printStep L s0 false d = SemOf.pure d := rfl

theorem SemOf.bind_pure (f : SemOf α) : SemOf.bind f SemOf.pure = f := by
  funext log
  unfold SemOf.bind
  rcases f log with ⟨r, log'⟩
  cases r <;> rfl

theorem bind_printStep_off (L : GoLib) (s0 : Store) (f : Sem) : SemOf.bind f (printStep L s0 false) = f :=
  SemOf.bind_pure f

/-- Without Debug, nothing is printed. -/
theorem heapSemD_off {L : GoLib} {parse : Str → Option (List Expr)} {bad : Val → Bool} {s0 : Store} {T : List QB}
    {d r : Nat} (h : NestedIn (fun b => b.debug = false) T d r) :
    heapSemD L parse bad s0 T d r = heapSem L parse bad T d r := by
  induction d generalizing r with
  | zero => rfl
  | succ d ih =>
    obtain ⟨b, h1, h2, h3⟩ := h
    rw [heapSemD, heapSem, h1]
    dsimp only
    rw [h2, bind_printStep_off]
    refine under_false.1 (qbSem_under fun c hc => semQ_under L parse bad c fun r' hr' => under_false.2 (ih (h3 r' ?_)))
    exact allBuilders_refs ((mem_qbRefsL ..).2 ⟨c, hc, hr'⟩)

theorem nestable_off {L : GoLib} {b : QB} (h : Nestable L b) : b.debug = false := by
  obtain ⟨cs, h1, -, h3, -⟩ := h
  rw [made_debug h1, h3]

/-- With Debug, a query builder means the same, or printing panics. -/
theorem heapSemD_under {L : GoLib} {parse : Str → Option (List Expr)} {bad : Val → Bool} {s0 : Store} {T : List QB}
    (d r : Nat) : Under (fun _ => True) (heapSemD L parse bad s0 T d r) (heapSem L parse bad T d r) := by
  induction d generalizing r with
  | zero => exact .refl (α := Doc) _
  | succ d ih =>
    rw [heapSemD, heapSem]
    cases T[r]? with
    | none => exact .refl (α := Doc) _
    | some b =>
      dsimp only
      have h1 := qbSem_under (H := fun _ => True) (b := b) (child := semQ L parse bad (heapSemD L parse bad s0 T d))
        (child' := semQ L parse bad (heapSem L parse bad T d)) fun c _ => semQ_under L parse bad c fun r _ => ih r
      have h2 := Under.bind (k := printStep L s0 b.debug) (k' := SemOf.pure) h1 (fun d log => by
        unfold printStep
        split
        · exact .inr ⟨trivial, trivial⟩
        · exact .inl rfl)
      rwa [SemOf.bind_pure] at h2

/-- The meaning does not depend on Debug. -/
theorem heapSem_withDebug {L : GoLib} {parse : Str → Option (List Expr)} {bad : Val → Bool} {T T' : List QB}
    (h : WithDebug T T') (d r : Nat) : heapSem L parse bad T d r = heapSem L parse bad T' d r := by
  induction d generalizing r with
  | zero => rfl
  | succ d ih =>
    rw [heapSem, heapSem, show heapSem L parse bad T d = heapSem L parse bad T' d from funext ih]
    rcases Pointwise.get h r with ⟨h1, h2⟩ | ⟨b, b', h1, h2, h3⟩
    · rw [h1, h2]
    · rw [h1, h2]
      obtain ⟨on, rfl⟩ : ∃ on, b' = { b with debug := on } := by
        rcases h3 with h3 | h3
        · exact ⟨b.debug, h3⟩
        · cases h3; exact ⟨true, rfl⟩
      dsimp only
      unfold qbSem
      rw [show QB.collectDependencies { b with debug := on } = b.collectDependencies from
        deps_same rfl rfl rfl rfl (fun _ => rfl) rfl]
      rfl

/-- Nested query builders correspond to their meanings in memory `T`, if they are the same in memory `T'`. -/
theorem nested_sims {s0 : Store} {L : GoLib} {T T' : List QB} {g : List Str}
    (hT : ∀ (r : Nat) (b : QB), T[r]? = some b → NestableD L b → T'[r]? = some b) (d r : Nat)
    (h : NestedIn (Nestable L) T d r) :
    Sims ⟨s0, memory T' g⟩ L (.qb r) (heapSem L (parseO L) (badFor s0) T d r) := by
  rw [← heapSemD_off (s0 := s0) (NestedIn.mono (fun _ h => nestable_off h) h)]
  exact nested_simsD hT d r (NestedIn.mono (fun _ h => h.d) h)

theorem queryAt_off {L : GoLib} {T : List QB} {d r : Nat} (h : QueryAt L T d r) :
    NestedIn (fun b => b.debug = false) T (d + 1) r := by
  obtain ⟨b, cs, h1, h2, h3, h4, h5⟩ := h
  exact ⟨b, h1, (made_debug h2).trans h3, fun r' hr => NestedIn.mono (fun _ h => nestable_off h) (h5 r' hr)⟩

theorem top_sim {s0 : Store} {L : GoLib} {T : List QB} {d r : Nat} (h : QueryAt L T d r) (g : List Str) :
    ∃ N, ∀ n, N ≤ n → ∀ ctx, BuiltinCtx ctx → ∀ ps s log, commitAll s0 log = some (ps, s.store) →
      HeapRel SelectsOnly T s.heap → g <+: s.log →
      SimAt s0 (fun s' => s'.usedA = s.usedA ∧ s'.usedF = s.usedF ∧ g <+: s'.log) RD ps log
        (run L n ctx (.build (.qb r)) s) (heapSem L (parseO L) (badFor s0) T (d + 1) r log) := by
  rw [← heapSemD_off (s0 := s0) (queryAt_off h)]
  exact top_simD h.d g

end Sqlf
