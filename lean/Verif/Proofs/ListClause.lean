import Verif.Spec.Query
import Verif.Proofs.JoinEv
/-!
# Clauses that list fragments
-/

namespace Sqlf

open Spec

/-- The items of a list that a `#join` has begun: all of them, or those up to one that fails. -/
inductive Begun (L : GoLib) (ctx : Ctx) : List Builder → St → List Str → Nat → St → Prop where
  | nil (s : St) : Begun L ctx [] s [] 0 s
  | cons {b : Builder} {bs : List Builder} {s s1 s2 : St} {t : Str} {ts : List Str} {n : Nat}
      (h : BuildsTo L ctx b s (.ok t, s1)) (hs : Begun L ctx bs s1 ts n s2) :
      Begun L ctx (b :: bs) s (t :: ts) (n + 1) s2
  | lost {b : Builder} {bs : List Builder} {s s1 : St} {o : Out Str} (h : BuildsTo L ctx b s (o, s1))
      (ho : IndexFailure o) : Begun L ctx (b :: bs) s [] 1 s1

theorem Begun.all {L : GoLib} {ctx : Ctx} {bs : List Builder} {s s' : St} {ts : List Str} {n : Nat}
    (h : Begun L ctx bs s ts n s') (hn : bs.length ≤ n) : BuildsList L ctx bs s ts s' := by
  induction h with
  | nil => exact .nil _
  | cons h _ ih => exact .cons h (ih (by simpa using hn))
  | lost h ho =>
    rename_i b bs _ _ _
    have : bs = [] := by
      cases bs with
      | nil => rfl
      | cons => simp at hn
    subst this
    exact .lost h ho

theorem Begun.used {L : GoLib} {ctx : Ctx} {bs : List Builder} {s s' : St} {ts : List Str} {n : Nat}
    (h : Begun L ctx bs s ts n s') : s'.usedA = s.usedA ∧ s'.usedF = s.usedF := by
  induction h with
  | nil => exact ⟨rfl, rfl⟩
  | cons h _ ih => exact ⟨ih.1.trans h.used.1, ih.2.trans h.used.2⟩
  | lost h _ => exact h.used

theorem mem_marks_lt {k n : Nat} (h : k ∈ marks n) : k < n := by
  induction n with
  | zero => simp [marks] at h
  | succ n ih =>
    rcases List.mem_cons.1 h with rfl | h
    · omega
    · have := ih h; omega

theorem clause_bare_ok {L : GoLib} {n : Nat} {ctx : Ctx} {e : Expr} {s s' : St} {t : Str}
    (h : run L (n + 1) ctx (.clause [e, .plain []]) s = (.ok t, s')) :
    evalExpr L (run L n) n ctx e s = (.ok t, s') := by
  change buildClause L (run L n) n ctx [e, .plain []] s = _ at h
  obtain ⟨a, s1, h1, h2⟩ := bind_ok h
  obtain ⟨b, s2, h3, h4⟩ := bind_ok h2
  change (Out.ok ([] : Str), s1) = _ at h3
  simp only [Prod.mk.injEq, Out.ok.injEq] at h3
  obtain ⟨rfl, rfl⟩ := h3
  simp only [M.pure, List.append_nil, Prod.mk.injEq, Out.ok.injEq] at h4
  obtain ⟨rfl, rfl⟩ := h4
  exact h1

theorem clause_bare_err {L : GoLib} {n : Nat} {ctx : Ctx} {e : Expr} {s s' : St} {err : Err}
    (h : run L (n + 1) ctx (.clause [e, .plain []]) s = (.err err, s')) :
    evalExpr L (run L n) n ctx e s = (.err err, s') := by
  change buildClause L (run L n) n ctx [e, .plain []] s = _ at h
  unfold buildClause M.bind at h
  rcases he : evalExpr L (run L n) n ctx e s with ⟨o, s1⟩
  rw [he] at h
  cases o with
  | ok a =>
    dsimp only at h
    change (Out.ok (a ++ ([] ++ [])), s1) = _ at h
    simp at h
  | err e => simpa using h
  | panic p => simp at h
  | oof => simp at h

/-- What `#fragment(i)` does. -/
theorem frag_call_eq {L : GoLib} {n : Nat} {ctx : Ctx} {fr : Frame} (hc : ctx.frame = some fr)
    {g : Str} (hg : g = lit "f" ∨ g = lit "fragment") (hb : BuiltIn L ctx g) {i : Int} {c : Builder}
    (hit : item? i fr.frags = some c) (s : St) :
    evalExpr L (run L n) n ctx (.call g [.int i]) s =
      M.wrapErr g (safeCall (run L n ctx (.build c))) { s with usedF := (i - 1).toNat :: s.usedF } := by
  have hl : isListFunc g = true := by rcases hg with rfl | rfl <;> decide
  have hna : g ≠ lit "arg" := by rcases hg with rfl | rfl <;> decide
  show evalFunction L (run L n) n ctx g [.int i] s = _
  rw [evalFunction_index hc hl hb (i := i) rfl, if_neg hna, bind_pure]
  unfold M.wrapErr safeCall
  rw [fragmentBuild_item hit]

theorem toErr_index {p : Panic} (h : p.toErr.isInvalidIndex = true) : IndexFailure (.panic p : Out Str) := by
  cases p <;> simp_all [Panic.toErr, Err.isInvalidIndex, IndexFailure]

/-- The loop of `#join('#fragment', sep)`. -/
theorem listLoop_ok {L : GoLib} {ctx : Ctx} {f : Fragment} {g sep : Str}
    (hg : g = lit "f" ∨ g = lit "fragment") (hb : BuiltIn L ctx g) {n m k : Nat} {bs : List Builder}
    (hbs : f.frags.drop k = bs) (hk : k ≤ f.frags.length) {acc t : Str} {s σ' : St}
    (h : joinLoop (run L n) (ctx.withFragment f) [.func g, .plain []] sep 0 0 m (k + 1) acc
      (setUsed s [] (marks k)) = (.ok t, σ')) :
    ∃ ts j s', Begun L ctx bs s ts j s' ∧ σ' = setUsed s' [] (marks (k + j)) ∧
      t = ts.foldl (joinAppend sep) acc := by
  induction m generalizing k bs acc s with
  | zero => simp [joinLoop] at h
  | succ m ih =>
    have hl : isListFunc g = true := by rcases hg with rfl | rfl <;> decide
    have hna : g ≠ lit "arg" := by rcases hg with rfl | rfl <;> decide
    unfold joinLoop at h
    change (match run L n (ctx.withFragment f) (.clause [.call g [.int (k + 1)], .plain []])
      (setUsed s [] (marks k)) with
      | (.ok t, s') => _
      | (.err e, s') => _
      | (.panic p, s') => _
      | (.oof, s') => _) = _ at h
    cases n with
    | zero => simp [run] at h
    | succ n =>
    cases bs with
    | nil =>
      have hlen : f.frags.length = k := by
        have := List.drop_eq_nil_iff.1 hbs; omega
      have he : evalExpr L (run L n) n (ctx.withFragment f) (.call g [.int (k + 1)]) (setUsed s [] (marks k)) =
          (.err (.wrap g (.invalidIndex (k + 1))), setUsed s [] (marks k)) :=
        evalExpr_index_err (fr := ⟨f.args, f.frags⟩) rfl hl (builtIn_withFragment f hb) rfl (.inr (by
          unfold listLen; rw [if_neg hna]; dsimp only; omega)) _
      have hr : run L (n + 1) (ctx.withFragment f) (.clause [.call g [.int (k + 1)], .plain []])
          (setUsed s [] (marks k)) = (.err (.wrap g (.invalidIndex (k + 1))), setUsed s [] (marks k)) :=
        bind_of_err he
      rw [hr] at h
      simp only [Err.isInvalidIndex, if_true] at h
      rw [if_neg (by omega)] at h
      simp only [Prod.mk.injEq, Out.ok.injEq] at h
      exact ⟨[], 0, s, .nil _, h.2.symm, h.1.symm⟩
    | cons c bs =>
      have hlt : k < f.frags.length := by
        rcases Nat.lt_or_ge k f.frags.length with h1 | h1
        · exact h1
        · rw [List.drop_eq_nil_iff.2 h1] at hbs; cases hbs
      have hck : f.frags[k]? = some c := by
        have := congrArg (·[0]?) hbs
        simpa using this
      have hit : item? ((k : Int) + 1) f.frags = some c := by
        unfold item?
        rw [if_pos (by omega)]
        have : ((k : Int) + 1 - 1).toNat = k := by omega
        rw [this]; exact hck
      have hdrop : f.frags.drop (k + 1) = bs := by
        have := congrArg List.tail hbs
        simpa [List.tail_drop] using this
      have heq := frag_call_eq (L := L) (n := n) (ctx := ctx.withFragment f) (fr := ⟨f.args, f.frags⟩) rfl hg
        (builtIn_withFragment f hb) hit (setUsed s [] (marks k))
      have hstate : ({ setUsed s [] (marks k) with usedF := ((k : Int) + 1 - 1).toNat :: (setUsed s [] (marks k)).usedF } : St) =
          setUsed s [] (marks (k + 1)) := by
        have : ((k : Int) + 1 - 1).toNat = k := by omega
        rw [this]; rfl
      rw [hstate] at heq
      have back : ∀ {o s1}, run L n (ctx.withFragment f) (.build c) (setUsed s [] (marks (k + 1))) = (o, s1) → o ≠ .oof →
          BuildsTo L ctx c s (o, setUsed s1 s.usedA s.usedF) ∧ s1 = setUsed (setUsed s1 s.usedA s.usedF) [] (marks (k + 1)) := by
        intro o s1 h1 hne
        have h2 : BuildsTo L (ctx.withFragment f) c (setUsed s [] (marks (k + 1))) (o, s1) := evals_of_run h1 hne
        have h4 := Spec.BuildsTo.scoped (ctx := ctx.withFragment f) (ctx' := ctx) rfl h2 s.usedA s.usedF
        have h5 : setUsed (setUsed s [] (marks (k + 1))) s.usedA s.usedF = s := rfl
        rw [h5] at h4
        refine ⟨h4, ?_⟩
        have h3 := h2.used
        cases s1
        simp only [setUsed] at h3 ⊢
        rw [← h3.1, ← h3.2]
      rcases hr : run L (n + 1) (ctx.withFragment f) (.clause [.call g [.int (k + 1)], .plain []])
          (setUsed s [] (marks k)) with ⟨o, s1⟩
      rw [hr] at h
      cases o with
      | ok u =>
        dsimp only at h
        rw [if_neg (by omega)] at h
        have h1 := safeCall_ok.1 (wrapErr_ok.1 (heq.symm.trans (clause_bare_ok hr)))
        obtain ⟨h2, h3⟩ := back h1 (by simp)
        rw [h3] at h
        obtain ⟨ts, j, s', h4, h5, h6⟩ := ih (k := k + 1) hdrop (by omega) h
        refine ⟨u :: ts, j + 1, s', .cons h2 h4, ?_, h6⟩
        rw [h5]; congr 2; omega
      | err e =>
        dsimp only at h
        by_cases hi : e.isInvalidIndex = true
        · rw [if_pos hi, if_neg (by omega)] at h
          simp only [Prod.mk.injEq, Out.ok.injEq] at h
          obtain ⟨rfl, rfl⟩ := h
          have h1 := heq.symm.trans (clause_bare_err hr)
          unfold M.wrapErr safeCall at h1
          rcases hm : run L n (ctx.withFragment f) (.build c) (setUsed s [] (marks (k + 1))) with ⟨o, s2⟩
          rw [hm] at h1
          cases o with
          | ok u => simp at h1
          | oof => simp at h1
          | err e' =>
            simp only [Prod.mk.injEq, Out.err.injEq] at h1
            obtain ⟨rfl, rfl⟩ := h1
            obtain ⟨h2, h3⟩ := back hm (by simp)
            exact ⟨[], 1, _, .lost h2 (by simpa [IndexFailure, Err.isInvalidIndex] using hi), h3, rfl⟩
          | panic p =>
            simp only [Prod.mk.injEq, Out.err.injEq] at h1
            obtain ⟨rfl, rfl⟩ := h1
            obtain ⟨h2, h3⟩ := back hm (by simp)
            exact ⟨[], 1, _, .lost h2 (toErr_index (by simpa [Err.isInvalidIndex] using hi)), h3, rfl⟩
        · rw [if_neg hi] at h
          simp at h
      | panic p => simp at h
      | oof => simp at h

theorem joinCheck_list_ok {L : GoLib} {ctx : Ctx} {g : Str} (hl : isListFunc g = true) (hb : BuiltIn L ctx g)
    (n : Nat) (s : St) : joinCheck (run L (n + 1)) ctx [.func g, .plain []] s = (.ok 1, s) := by
  obtain ⟨b, hf, hbn⟩ := rootCtx_index hl
  have hfn := (builtIn_fn hb).trans hf
  unfold joinCheck
  rw [hfn]
  have hjc : joinCompatible (run L (n + 1)) (indexInfo g b) s = (.ok true, s) := by
    rcases hbn with ⟨rfl, -⟩ | ⟨rfl, -⟩
    · exact (joinCompatible_index L n g s).1
    · exact (joinCompatible_index L n g s).2
  exact (bind_of_ok hjc).trans rfl

/-- A fragment with the template `#join('#fragment', sep)`. -/
theorem listClause_ok {L : GoLib} {ctx : Ctx} {raw sep pre g : Str} {cs : List Builder}
    {s s' : St} {t : Str}
    (hb : BuiltIn L ctx (lit "join")) (hg : g = lit "f" ∨ g = lit "fragment") (hbg : BuiltIn L ctx g)
    (hp : parse L raw = .ok [.call (lit "join") [.str (lit "#" ++ g), .str sep]])
    (h : BuildsTo L ctx (.frag (.mk raw [] cs pre [])) s (.ok t, s')) :
    ∃ ts, BuildsList L ctx cs s ts s' ∧ t = decorate pre [] (strJoin sep (ts.filter (· ≠ []))) := by
  have hl : isListFunc g = true := by rcases hg with rfl | rfl <;> decide
  have ht : parse L (lit "#" ++ g) = .ok [.func g, .plain []] := by
    rcases hg with rfl | rfl
    · kernel_rfl
    · kernel_rfl
  have hu := h.used
  obtain ⟨-, N, h⟩ := h
  have h : buildFragment L (run L (N + 1)) (N + 1) ctx (.mk raw [] cs pre []) s = (.ok t, s') := h (N + 2) (by omega)
  obtain ⟨es, body, s1, h1, h2, h3, h4, h5⟩ := buildFragment_ok.1 h
  rw [show (Fragment.mk raw [] cs pre []).raw = raw from rfl, hp] at h1
  cases h1
  obtain ⟨a, s2, h6, h7⟩ := bind_ok h2
  obtain ⟨b, s3, h8, h9⟩ := bind_ok h7
  change (Out.ok ([] : Str), s2) = _ at h8
  simp only [Prod.mk.injEq, Out.ok.injEq] at h8
  obtain ⟨rfl, rfl⟩ := h8
  simp only [M.pure, List.append_nil, Prod.mk.injEq, Out.ok.injEq] at h9
  obtain ⟨rfl, rfl⟩ := h9
  have h10 := safeCall_ok.1 (wrapErr_ok.1 ((evalExpr_join (builtIn_withFragment _ hb) (tm := lit "#" ++ g)
    (sep := sep) (is := []) rfl (N + 1) s.fresh).symm.trans h6))
  unfold funcJoin at h10
  rw [if_neg (by simp)] at h10
  rw [if_neg (by simp), ht] at h10
  have h11 := (bind_of_ok (joinCheck_list_ok hl (builtIn_withFragment (.mk raw [] cs pre []) hbg) N s.fresh)).symm.trans h10
  obtain ⟨ts, j, s4, h12, h13, h14⟩ := listLoop_ok (k := 0) hg hbg rfl (Nat.zero_le _) (s := s) h11
  have hj : cs.length ≤ j := by
    unfold checkUsage at h4
    rw [h13] at h4
    dsimp only [setUsed] at h4
    have h5 : firstUnused (marks (0 + j)) cs.length = none := by
      change (match firstUnused [] 0 with
        | some i => some (Err.unused (some (i + 1)) ((firstUnused (marks (0 + j)) cs.length).map (· + 1)))
        | none => match firstUnused (marks (0 + j)) cs.length with
          | some i => some (Err.unused none (some (i + 1)))
          | none => none) = none at h4
      simp only [firstUnused] at h4
      cases hf : firstUnused (marks (0 + j)) cs.length with
      | none => rfl
      | some i => rw [hf] at h4; cases h4
    rcases Nat.lt_or_ge j cs.length with h6 | h6
    · have := mem_marks_lt (firstUnused_none.1 h5 j h6)
      omega
    · exact h6
  refine ⟨ts, ?_, ?_⟩
  · have h6 := h12.all hj
    have : s' = s4 := by
      have h7 := h12.used
      rw [h5, h13]
      unfold setUsed
      rw [← h7.1, ← h7.2]
    rw [this]; exact h6
  · rw [h3, h14, foldl_joinAppend]
    rfl

end Sqlf
