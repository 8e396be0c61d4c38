import Verif.Proofs.StylesCalls
import Verif.Proofs.SwapRun
import Verif.Props.Store
import Verif.KernelRfl
/-!
# C99: the style only decides how placeholders are written
-/

namespace Sqlf.Props

open Sqlf Spec

private theorem build_s {L : GoLib} {b : Builder} (hb : BlindToStyle b) {heap : List QB} (hh : ∀ q ∈ heap, QuietQB q) (n : Nat) :
    ∃ ns, OutLike (SameButMarks ns) (run L n rootCtx (.build b) (St.init question heap)).1 (run L n rootCtx (.build b) (St.init dollar heap)).1 ∧
      StS false ns (run L n rootCtx (.build b) (St.init question heap)).2 (run L n rootCtx (.build b) (St.init dollar heap)).2 := by
  have h0 : StS false [] (St.init question heap) (St.init dollar heap) :=
    ⟨⟨rfl, by simp [St.init, Store.new, commitAll]⟩, rfl, rfl, rfl, hh, rfl⟩
  obtain ⟨ns, -, -, h1, h2⟩ := run_s L n false [] _ _ (.build b) (.build b) ctx_s hb [] (List.prefix_refl _) _ _ h0
  exact ⟨ns, h1, h2⟩

private theorem same_of_s {ns : List Nat} {r r' : Out Str × St} (hne : r.1 ≠ .oof ∨ r'.1 ≠ .oof)
    (h1 : OutLike (SameButMarks ns) r.1 r'.1) (h2 : StS false ns r.2 r'.2) :
    r.1 ≠ .oof ∧ r'.1 ≠ .oof ∧ SameInBothStyles (queryOut r) (queryOut r') := by
  rcases h1.cases with ⟨a, b, e, e', hq⟩ | ⟨x, e, e'⟩ | ⟨x, e, e'⟩ | ⟨e, e'⟩
  · rw [e, e']
    refine ⟨by simp, by simp, ?_⟩
    obtain ⟨-, hc⟩ := h2.store
    obtain ⟨d, hd, rfl, rfl⟩ := hq
    have hl := commitAll_length hc
    rw [List.length_map] at hl
    obtain ⟨l, hs1, hs2⟩ := commitAll_sublist rfl hc
    have hs1 : r'.2.store.args = l := hs1
    have res : ∀ (k : Nat) (v : Val), r.2.store.args[k]? = some v → ∃ n w, (ns.map dollarMark)[k]? = some (dollarMark n) ∧
        1 ≤ n ∧ r'.2.store.args[n - 1]? = some w ∧ (w = v ∨ GoEqual w v) := by
      intro k v hv
      obtain ⟨n, w, h1, h2, -, h3, -, h4⟩ := C14_dollar_placeholders_stable _ [] _ [] _ _ hc rfl k v hv
      exact ⟨n, w, h1, h2, h3, h4⟩
    refine ⟨⟨d, ns.map dollarMark, ?_, rfl, ?_⟩, by rw [hs1]; exact hs2, ?_, (C15_dollar_merges_equal_only _ _ _ hc).2⟩
    · rw [← hl]
      congr 1
      simp [List.map_const']
    · intro k hk
      have hk : k < r.2.store.args.length := by rw [← hl]; exact hd k hk
      obtain ⟨n, w, h⟩ := res k _ (List.getElem?_eq_getElem hk)
      exact ⟨n, _, w, h.1, List.getElem?_eq_getElem hk, h.2⟩
    · intro v hv
      obtain ⟨k, hk⟩ := List.getElem?_of_mem hv
      obtain ⟨n, w, -, -, h3, h4⟩ := res k v hk
      exact ⟨w, List.mem_of_getElem? h3, h4⟩
  · rw [e, e']; exact ⟨by simp, by simp, rfl⟩
  · rw [e, e']; exact ⟨by simp, by simp, rfl⟩
  · rw [e, e'] at hne; simp at hne

private theorem builds_s {L : GoLib} {b : Builder} (hb : BlindToStyle b) {heap : List QB} (hh : ∀ q ∈ heap, QuietQB q) :
    (∀ r, BuildsTo L rootCtx b (St.init question heap) r → ∃ r', BuildsTo L rootCtx b (St.init dollar heap) r' ∧
      SameInBothStyles (queryOut r) (queryOut r') ∧ r'.2.heap = r.2.heap ∧ ∀ q ∈ r.2.heap, QuietQB q) ∧
    (∀ r', BuildsTo L rootCtx b (St.init dollar heap) r' → ∃ r, BuildsTo L rootCtx b (St.init question heap) r ∧
      SameInBothStyles (queryOut r) (queryOut r') ∧ r'.2.heap = r.2.heap ∧ ∀ q ∈ r.2.heap, QuietQB q) := by
  constructor
  · rintro r ⟨hne, N, hN⟩
    obtain ⟨ns, h1, h2⟩ := build_s (L := L) hb hh N
    rw [hN N (Nat.le_refl _)] at h1 h2
    obtain ⟨-, g1, g2⟩ := same_of_s (.inl hne) h1 h2
    exact ⟨_, buildsTo_of_run (n := N) rfl g1, g2, h2.heap.symm, h2.good⟩
  · rintro r ⟨hne, N, hN⟩
    obtain ⟨ns, h1, h2⟩ := build_s (L := L) hb hh N
    rw [hN N (Nat.le_refl _)] at h1 h2
    obtain ⟨g1, -, g2⟩ := same_of_s (.inr hne) h1 h2
    exact ⟨_, buildsTo_of_run (n := N) rfl g1, g2, h2.heap.symm, h2.good⟩

/-- **C99** If user code does not look at placeholders — it may put the texts it gets into other texts and builders,
but takes the same steps for all texts that are the same but for their placeholders — and all values can be map keys, then the builds in the two styles have the same outcome: the same
error, the same panic, or the same query but for placeholders, which refer to equal arguments. -/
theorem C99_style_decides_placeholders_only (L : GoLib) (b : Builder) (hb : BlindToStyle b) (heap : List QB)
    (hh : ∀ q ∈ heap, BlindQuery q) :
    (∀ o, Returns L b question heap o → ∃ o', Returns L b dollar heap o' ∧ SameInBothStyles o o') ∧
    (∀ o', Returns L b dollar heap o' → ∃ o, Returns L b question heap o ∧ SameInBothStyles o o') := by
  obtain ⟨h1, h2⟩ := builds_s (L := L) hb fun q hq => blindQuery_quiet (hh q hq)
  constructor
  · intro o h
    obtain ⟨r, hr, rfl⟩ := returns_iff_buildsTo.1 h
    obtain ⟨r', h3, h4, -⟩ := h1 r hr
    exact ⟨_, returns_iff_buildsTo.2 ⟨r', h3, rfl⟩, h4⟩
  · intro o h
    obtain ⟨r, hr, rfl⟩ := returns_iff_buildsTo.1 h
    obtain ⟨r', h3, h4, -⟩ := h2 r hr
    exact ⟨_, returns_iff_buildsTo.2 ⟨r', h3, rfl⟩, h4⟩

private theorem series_s {L : GoLib} : ∀ (bs : List Builder), (∀ b ∈ bs, BlindToStyle b) → ∀ {heap : List QB},
    (∀ q ∈ heap, QuietQB q) → ∀ {os : List (Out (Str × List Val))}, Series L heap (bs.map (·, question)) os →
    ∃ os', Series L heap (bs.map (·, dollar)) os' ∧ Pointwise SameInBothStyles os os'
  | [], _, heap, _, os, h => by cases h; exact ⟨[], .nil _, .nil⟩
  | b :: bs, hb, heap, hh, os, h => by
    cases h with
    | @cons _ _ _ o ctx r s _ os h hc hbt hs =>
      rw [newContext_eq] at hc
      cases hc
      obtain ⟨r', h3, h4, h5, h6⟩ := (builds_s (L := L) (hb b (by simp)) hh).1 _ hbt
      obtain ⟨os', h7, h8⟩ := series_s bs (fun x hx => hb x (by simp [hx])) h6 hs
      obtain ⟨r1, h9, rfl⟩ := returns_iff_buildsTo.1 h
      cases buildsTo_unique h9 hbt
      refine ⟨_ :: os', .cons (returns_iff_buildsTo.2 ⟨r', h3, rfl⟩) (newContext_eq L) (r := r'.1) (s := r'.2) h3 ?_, .cons h4 h8⟩
      rw [h5]
      exact h7

/-- **C99** The same for any series of builds that share query builders, each of which finds the query builders as
the earlier builds left them. -/
theorem C99_style_decides_placeholders_only_later (L : GoLib) (bs : List Builder) (hb : ∀ b ∈ bs, BlindToStyle b)
    (heap : List QB) (hh : ∀ q ∈ heap, BlindQuery q) (os : List (Out (Str × List Val)))
    (h : Series L heap (bs.map (·, question)) os) :
    ∃ os', Series L heap (bs.map (·, dollar)) os' ∧ Pointwise SameInBothStyles os os' :=
  series_s bs hb (fun q hq => blindQuery_quiet (hh q hq)) h

/-! ## Builders that do not look at placeholders -/

mutual
private theorem blind_noCode (ns : List Nat) : ∀ b : Builder, NoCode b → AllVals (fun v => ¬ Unhashable v) b → StyleFree ns b b
  | .frag f, hc, hv => by
    rw [NoCode] at hc; rw [AllVals] at hv; rw [StyleFree]; exact blindF_noCode ns f hc hv
  | .column t f, hc, hv => by
    rw [NoCode] at hc; rw [AllVals] at hv; rw [StyleFree]; exact ⟨rfl, blindF_noCode ns f hc hv⟩
  | .custom p, hc, hv => by rw [NoCode] at hc; exact hc.elim
  | .table _, _, _ => by simp [StyleFree]
  | .aliased _ _, _, _ => by simp [StyleFree]
  | .nil, _, _ => by simp [StyleFree]
  | .nilFrag, _, _ => by simp [StyleFree]
  | .nilColumn, _, _ => by simp [StyleFree]
  | .columnNilFrag _, _, _ => by simp [StyleFree]
  | .nilQb, _, _ => by simp [StyleFree]
  | .qb _, _, _ => by simp [StyleFree]
private theorem blindF_noCode (ns : List Nat) : ∀ f : Fragment, NoCodeF f → AllValsF (fun v => ¬ Unhashable v) f → StyleFreeF ns f f
  | .mk raw args frags pre suf, hc, hv => by
    rw [NoCodeF] at hc; rw [AllValsF] at hv; rw [StyleFreeF]
    exact ⟨rfl, rfl, hv.1, blindL_noCode ns frags hc hv.2, sameButMarks_str _ _, sameButMarks_str _ _⟩
private theorem blindL_noCode (ns : List Nat) : ∀ bs : List Builder, NoCodeL bs → AllValsL (fun v => ¬ Unhashable v) bs → StyleFreeL ns bs bs
  | [], _, _ => by simp [StyleFreeL]
  | b :: bs, hc, hv => by
    rw [NoCodeL] at hc; rw [AllValsL] at hv; rw [StyleFreeL]
    exact ⟨blind_noCode ns b hc.1 hv.1, blindL_noCode ns bs hc.2 hv.2⟩
end

/-- **C99** Builders without user code do not look at placeholders. -/
theorem C99_no_code_is_blind (b : Builder) (h : Over (fun v => ¬ Unhashable v) b) : BlindToStyle b :=
  blind_noCode [] b h.1 h.2

/-- **C80** For any builder without user code, whatever is wrong with the query builders in it: the builds in the two
styles have the same outcome, down to the error.  (`_partial`: as `C80_query_styles_agree_partial`.) -/
theorem C80_any_queries_styles_agree_partial (L : GoLib) (b : Builder) (hb : Over (fun v => ¬ Unhashable v) b) (heap : List QB)
    (hh : ∀ q ∈ heap, ∃ cs, runCalls QB.new cs = .ok q ∧ ∀ c ∈ cs, CallOver (fun v => ¬ Unhashable v) c ∧ c ≠ .debug) :
    (∀ o, Returns L b question heap o → ∃ o', Returns L b dollar heap o' ∧ SameInBothStyles o o') ∧
    (∀ o', Returns L b dollar heap o' → ∃ o, Returns L b question heap o ∧ SameInBothStyles o o') := by
  refine C99_style_decides_placeholders_only L b (C99_no_code_is_blind b hb) heap fun q hq => ?_
  obtain ⟨cs, h1, h2⟩ := hh q hq
  refine ⟨cs, h1, fun c hc => ?_⟩
  obtain ⟨h3, h4⟩ := h2 c hc
  have ho : ∀ b, Over (fun v => ¬ Unhashable v) b → BlindToStyle b := C99_no_code_is_blind
  cases c with
  | debug => exact (h4 rfl).elim
  | select cs => exact fun x hx => ho x (h3 x hx)
  | groupBy cs => exact fun x hx => ho x (h3 x hx)
  | union bs => exact fun x hx => ho x (h3 x hx)
  | orderBy c o => exact ho c h3
  | with_ n b ds => exact ho b h3
  | where2 c op v => exact ⟨ho c h3.1, h3.2⟩
  | whereIn c l => exact ⟨ho c h3.1, h3.2⟩
  | whereNotIn c l => exact ⟨ho c h3.1, h3.2⟩
  | where_ f => exact fun g hg => ho _ (h3 g hg)
  | innerJoin t on => exact fun g hg => ho _ (h3 g hg)
  | leftJoin t on => exact fun g hg => ho _ (h3 g hg)
  | leftJoinOptional t on => exact fun g hg => ho _ (h3 g hg)
  | rightJoin t on => exact fun g hg => ho _ (h3 g hg)
  | fullJoin t on => exact fun g hg => ho _ (h3 g hg)
  | _ => trivial

/-- User code that builds a builder and puts the text in parentheses. -/
def inParentheses (b : Builder) : Builder :=
  .custom (.build b fun r => match r with
    | .ok t => .ret (lit "(" ++ t ++ lit ")")
    | .error e => .fail e)

/-- **C99** User code that builds something and puts it in parentheses does not look at placeholders. -/
theorem C99_parentheses_are_blind (b : Builder) (h : BlindToStyle b) : BlindToStyle (inParentheses b) := by
  unfold BlindToStyle inParentheses
  rw [StyleFree, StyleFreeCode]
  refine ⟨h, fun ns' _ r r' hr => ?_⟩
  cases r <;> cases r' <;> simp only [SameResult] at hr
  · subst hr; simp [StyleFreeCode]
  · rw [StyleFreeCode]
    exact ((sameButMarks_str _ _).append hr).append (sameButMarks_str _ _)

/-- User code that commits a value, and uses the placeholder twice, once as the prefix of a fragment. -/
private def twiceInCode (v : Val) : Builder :=
  .custom (.commit v fun t => .build (.frag (.mk (lit "$1") [.int 1 1] [] (t ++ lit " +") [])) fun r => match r with
    | .ok u => .ret (u ++ lit " / " ++ t)
    | .error e => .fail e)

private theorem twiceInCode_blind {v : Val} (hv : ¬ Unhashable v) : BlindToStyle (twiceInCode v) := by
  unfold BlindToStyle twiceInCode
  rw [StyleFree, StyleFreeCode]
  refine ⟨rfl, hv, fun ns' _ t t' ht => ?_⟩
  rw [StyleFreeCode]
  refine ⟨?_, fun ns2 hn r r' hr => ?_⟩
  · rw [StyleFree, StyleFreeF, StyleFreeL]
    refine ⟨rfl, rfl, ?_, trivial, ht.append (sameButMarks_str _ _), sameButMarks_str _ _⟩
    intro w hw
    rw [List.mem_singleton] at hw
    subst hw
    rw [not_unhashable_iff]
    rfl
  · cases r <;> cases r' <;> simp only [SameResult] at hr
    · subst hr; simp [StyleFreeCode]
    · rw [StyleFreeCode]
      exact (hr.append (sameButMarks_str _ _)).append (ht.mono hn)

private def stylesCalls : List Call :=
  [.select [tableColumn (lit "t") (lit "id")], .from_ ⟨lit "t", []⟩,
    .where2 (.column [] (.mk (lit "#f1") [] [inParentheses (twiceInCode (.int 1 7))] [] [])) (lit " = ") (.int 1 7)]

private def stylesQB : QB := match runCalls QB.new stylesCalls with | .ok b => b | _ => QB.new

/-- User code in a condition of a subquery in user code. -/
example (L : GoLib) :
    BlindToStyle (inParentheses (.qb 0)) ∧ (∀ q ∈ [stylesQB], BlindQuery q) ∧
    Returns L (inParentheses (.qb 0)) question [stylesQB]
      (.ok (lit "(SELECT t.id FROM t WHERE (? + ? / ?) = ?)", [.int 1 7, .int 1 1, .int 1 7])) ∧
    Returns L (inParentheses (.qb 0)) dollar [stylesQB]
      (.ok (lit "(SELECT t.id FROM t WHERE ($1 + $2 / $1) = $1)", [.int 1 7, .int 1 1])) := by
  have h7 : ¬ Unhashable (.int 1 7) := by rw [not_unhashable_iff]; rfl
  refine ⟨C99_parentheses_are_blind _ (by simp [BlindToStyle, StyleFree]), ?_,
    returns_of_buildQuery (n := 100) (by kernel_rfl) (by simp), returns_of_buildQuery (n := 100) (by kernel_rfl) (by simp)⟩
  intro q hq
  rw [List.mem_singleton] at hq
  subst hq
  refine ⟨stylesCalls, rfl, fun c hc => ?_⟩
  simp only [stylesCalls, List.mem_cons, List.not_mem_nil, or_false] at hc
  rcases hc with rfl | rfl | rfl
  · intro c hc
    rw [List.mem_singleton] at hc
    subst hc
    exact C99_no_code_is_blind _ (by rw [not_unhashable_fun]; exact over_check (by decide +kernel))
  · trivial
  · refine ⟨?_, h7⟩
    unfold BlindToStyle
    rw [StyleFree, StyleFreeF, StyleFreeL]
    exact ⟨rfl, rfl, rfl, by simp, ⟨C99_parentheses_are_blind _ (twiceInCode_blind h7), trivial⟩, sameButMarks_str _ _, sameButMarks_str _ _⟩

/-- User code that looks: it asks whether the placeholder is `?`. -/
private def looksAtStyle : Builder :=
  .custom (.commit (.int 1 7) fun t => if t = lit "?" then .ret (lit "a") else .ret (lit "b"))

private theorem mem_of_bind {ps : List Str} {d : Doc} {k : Nat} {p : Str} (hk : k ∈ binds d) (hp : ps[k]? = some p) :
    ∀ c ∈ p, c ∈ renderDoc ps d := by
  induction d with
  | nil => simp [binds] at hk
  | cons x d ih =>
    intro c hc
    cases x with
    | byte b => exact List.mem_cons_of_mem _ (ih hk c hc)
    | bind j =>
      rcases List.mem_cons.1 hk with rfl | hk
      · refine List.mem_append_left _ ?_
        rw [List.getD_eq_getElem?_getD, hp]
        exact hc
      · exact List.mem_append_right _ (ih hk c hc)

private theorem render_noBind {d : Doc} (h : binds d = []) (ps ps' : List Str) : renderDoc ps d = renderDoc ps' d := by
  induction d with
  | nil => rfl
  | cons x d ih =>
    cases x with
    | byte b => show b :: _ = b :: _; rw [ih h]
    | bind j => simp [binds] at h

/-- Why user code must not look: here the two builds are different queries. -/
theorem C99_code_that_looks (L : GoLib) :
    Returns L looksAtStyle question [] (.ok (lit "a", [.int 1 7])) ∧
    Returns L looksAtStyle dollar [] (.ok (lit "b", [.int 1 7])) ∧
    ¬ SameInBothStyles (.ok (lit "a", [.int 1 7])) (.ok (lit "b", [.int 1 7])) := by
  refine ⟨returns_of_buildQuery (n := 10) (by kernel_rfl) (by simp), returns_of_buildQuery (n := 10) (by kernel_rfl) (by simp), ?_⟩
  rintro ⟨⟨d, ps, h1, h2, h3⟩, -⟩
  cases hb : binds d with
  | nil => rw [render_noBind hb _ ps, ← h2] at h1; exact absurd h1 (by decide)
  | cons k ks =>
    obtain ⟨n, v, w, -, hv, -⟩ := h3 k (by simp [hb])
    have hk : k = 0 := by
      cases k with
      | zero => rfl
      | succ k => simp at hv
    subst hk
    have := mem_of_bind (ps := List.replicate 1 (lit "?")) (d := d) (k := 0) (p := lit "?") (by simp [hb]) rfl 63 (by decide)
    rw [show [Val.int 1 7].length = 1 from rfl] at h1
    rw [← h1] at this
    exact absurd this (by decide)

end Sqlf.Props
