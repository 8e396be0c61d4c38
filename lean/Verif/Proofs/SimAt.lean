import Verif.Proofs.ListSem
import Verif.Proofs.Again
/-!
# Correspondence of the code with meanings that have results of any type
-/

namespace Sqlf

open Spec

/-- An outcome of the code matches an outcome of the specification, `R` relating results. -/
def MatchesR (R : α → β → Prop) : Res β → Out α → Prop
  | .ok b, .ok a => R a b
  | .invalidIndex, .err e => e.isInvalidIndex = true
  | .error, .err e => e.isInvalidIndex = false
  | .panic, .panic p => p.toErr.isInvalidIndex = false
  | _, _ => False

/-- Text and document. -/
def RD (ps : List Str) (t : Str) (d : Doc) : Prop := t = renderDoc ps d ∧ InRange ps d

/-- Texts and documents. -/
def RDs (ps : List Str) (ts : List Str) (ds : List Doc) : Prop :=
  ts = ds.map (renderDoc ps) ∧ ∀ d ∈ ds, InRange ps d

/-- Results correspond, for a run with placeholders `ps` and committed values `log`. -/
def SimAt (s0 : Store) (K : St → Prop) (R : List Str → α → β → Prop) (ps : List Str) (log : List Val)
    (r : Out α × St) (c : Res β × List Val) : Prop :=
  ∃ ps', ps <+: ps' ∧ log <+: c.2 ∧ commitAll s0 c.2 = some (ps', r.2.store) ∧ K r.2 ∧ MatchesR (R ps') c.1 r.1

theorem matchesR_RD (ps : List Str) (c : Res Doc) (o : Out Str) : MatchesR (RD ps) c o ↔ Matches ps c o := by
  cases c <;> cases o <;> rfl

theorem SimAt.mono {s0 : Store} {K K' : St → Prop} {R R' : List Str → α → β → Prop} {ps : List Str} {log : List Val}
    {r : Out α × St} {c : Res β × List Val} (h : SimAt s0 K R ps log r c) (hK : ∀ s, K s → K' s)
    (hR : ∀ ps' a b, Marks ps' → R ps' a b → R' ps' a b) : SimAt s0 K' R' ps log r c := by
  obtain ⟨ps', h1, h2, h3, h4, h5⟩ := h
  refine ⟨ps', h1, h2, h3, hK _ h4, ?_⟩
  have hm := commitAll_marks h3
  rcases r with ⟨o, s⟩
  rcases c with ⟨c, log'⟩
  cases c <;> cases o <;> simp_all [MatchesR]

theorem SimAt.pure {s0 : Store} {K : St → Prop} {R : List Str → α → β → Prop} {ps : List Str} {log : List Val}
    {s : St} {a : α} {b : β} (hs : commitAll s0 log = some (ps, s.store)) (hK : K s) (h : R ps a b) :
    SimAt s0 K R ps log (M.pure a s) (SemOf.pure b log) :=
  ⟨ps, List.prefix_rfl, List.prefix_rfl, hs, hK, h⟩

theorem SimAt.trans {s0 : Store} {K : St → Prop} {R : List Str → α → β → Prop} {ps ps1 : List Str}
    {log log1 : List Val} {r : Out α × St} {c : Res β × List Val} (hp : ps <+: ps1) (hl : log <+: log1)
    (h : SimAt s0 K R ps1 log1 r c) : SimAt s0 K R ps log r c := by
  obtain ⟨ps', h1, h2, h3⟩ := h
  exact ⟨ps', hp.trans h1, hl.trans h2, h3⟩

/-- Sequencing. -/
theorem SimAt.bind {s0 : Store} {K K' : St → Prop} {R : List Str → α → β → Prop} {R' : List Str → α' → β' → Prop}
    {ps : List Str} {log : List Val} {s : St} {m : M α} {f : SemOf β} {k : α → M α'} {g : β → SemOf β'}
    (h : SimAt s0 K R ps log (m s) (f log)) (hK : ∀ s, K s → K' s)
    (hk : ∀ ps1 s1 log1 a b, ps <+: ps1 → commitAll s0 log1 = some (ps1, s1.store) → K s1 → R ps1 a b →
      SimAt s0 K' R' ps1 log1 (k a s1) (g b log1)) :
    SimAt s0 K' R' ps log (M.bind m k s) (SemOf.bind f g log) := by
  obtain ⟨ps', h1, h2, h3, h4, h5⟩ := h
  unfold M.bind SemOf.bind
  rcases hr : m s with ⟨o, s'⟩
  rcases hc : f log with ⟨d, log'⟩
  rw [hr, hc] at h5
  rw [hr] at h3 h4
  rw [hc] at h2 h3
  cases d <;> cases o <;> simp only [MatchesR] at h5
  · exact SimAt.trans h1 h2 (hk _ _ _ _ _ h1 h3 h4 h5)
  · exact ⟨ps', h1, h2, h3, hK _ h4, h5⟩
  · exact ⟨ps', h1, h2, h3, hK _ h4, h5⟩
  · exact ⟨ps', h1, h2, h3, hK _ h4, h5⟩

/-- Results correspond; on success the state has `Ko`, in any case `K`. -/
def SimTo (s0 : Store) (K Ko : St → Prop) (R : List Str → α → β → Prop) (ps : List Str) (log : List Val)
    (r : Out α × St) (c : Res β × List Val) : Prop :=
  SimAt s0 K R ps log r c ∧ ∀ a, r.1 = .ok a → Ko r.2

theorem SimAt.to {s0 : Store} {K K' Ko : St → Prop} {R : List Str → α → β → Prop} {ps : List Str} {log : List Val}
    {r : Out α × St} {c : Res β × List Val} (h : SimAt s0 K R ps log r c) (hK : ∀ s, K s → K' s)
    (hKo : ∀ s, K s → Ko s) : SimTo s0 K' Ko R ps log r c :=
  ⟨h.mono hK fun _ _ _ _ h => h, fun _ _ => by obtain ⟨_, _, _, _, h, _⟩ := h; exact hKo _ h⟩

/-- Sequencing. -/
theorem SimTo.bind {s0 : Store} {K K1 K' Ko : St → Prop} {R : List Str → α → β → Prop}
    {R' : List Str → α' → β' → Prop}
    {ps : List Str} {log : List Val} {s : St} {m : M α} {f : SemOf β} {k : α → M α'} {g : β → SemOf β'}
    (h : SimTo s0 K K1 R ps log (m s) (f log)) (hK : ∀ s, K s → K' s)
    (hk : ∀ ps1 s1 log1 a b, ps <+: ps1 → commitAll s0 log1 = some (ps1, s1.store) → K1 s1 → R ps1 a b →
      SimTo s0 K' Ko R' ps1 log1 (k a s1) (g b log1)) :
    SimTo s0 K' Ko R' ps log (M.bind m k s) (SemOf.bind f g log) := by
  obtain ⟨⟨ps', h1, h2, h3, h4, h5⟩, h6⟩ := h
  unfold M.bind SemOf.bind
  rcases hr : m s with ⟨o, s'⟩
  rcases hc : f log with ⟨d, log'⟩
  rw [hr, hc] at h5
  rw [hr] at h3 h4 h6
  rw [hc] at h2 h3
  cases d <;> cases o <;> simp only [MatchesR] at h5
  · have := hk _ _ _ _ _ h1 h3 (h6 _ rfl) h5
    exact ⟨SimAt.trans h1 h2 this.1, this.2⟩
  all_goals exact ⟨⟨ps', h1, h2, h3, hK _ h4, h5⟩, by simp⟩

theorem isInvalidIndex_wrap (w : Str) (e : Err) : (Err.wrap w e).isInvalidIndex = e.isInvalidIndex := rfl

theorem SimAt.wrap {s0 : Store} {K : St → Prop} {R : List Str → α → β → Prop} {ps : List Str} {log : List Val}
    {s : St} {m : M α} {c : Res β × List Val} (w : Str) (h : SimAt s0 K R ps log (m s) c) :
    SimAt s0 K R ps log (M.wrapErr w m s) c := by
  obtain ⟨ps', h1, h2, h3, h4, h5⟩ := h
  unfold M.wrapErr
  rcases hr : m s with ⟨o, s'⟩
  rw [hr] at h3 h4 h5
  rcases c with ⟨c, log'⟩
  cases c <;> cases o <;> simp only [MatchesR] at h5
  all_goals exact ⟨ps', h1, h2, h3, h4, h5⟩

/-- A meaning with its result changed. -/
theorem SimAt.map {s0 : Store} {K : St → Prop} {R : List Str → α → γ → Prop} {ps : List Str} {log : List Val}
    {r : Out α × St} {f : SemOf β} {g : β → γ}
    (h : SimAt s0 K R ps log r (SemOf.bind f (fun b => SemOf.pure (g b)) log)) :
    SimAt s0 K (fun ps a b => R ps a (g b)) ps log r (f log) := by
  obtain ⟨ps', h1, h2, h3, h4, h5⟩ := h
  unfold SemOf.bind at h2 h3 h5
  rcases hc : f log with ⟨c, log'⟩
  rw [hc] at h2 h3 h5
  rcases r with ⟨o, s⟩
  cases c <;> exact ⟨ps', h1, h2, h3, h4, by cases o <;> exact h5⟩

/-- The code with its result changed. -/
theorem SimAt.mapOut {s0 : Store} {K : St → Prop} {R : List Str → α → β → Prop} {R' : List Str → α' → β → Prop}
    {ps : List Str} {log : List Val} {s : St} {m : M α} {c : Res β × List Val} {f : α → α'}
    (h : SimAt s0 K R ps log (m s) c) (hR : ∀ ps a b, Marks ps → R ps a b → R' ps (f a) b) :
    SimAt s0 K R' ps log (M.bind m (fun a => M.pure (f a)) s) c := by
  obtain ⟨ps', h1, h2, h3, h4, h5⟩ := h
  have hm := commitAll_marks h3
  unfold M.bind
  rcases hr : m s with ⟨o, s'⟩
  rw [hr] at h3 h4 h5
  rcases c with ⟨c, log'⟩
  cases c <;> cases o <;> simp only [MatchesR] at h5
  · exact ⟨ps', h1, h2, h3, h4, hR _ _ _ hm h5⟩
  all_goals exact ⟨ps', h1, h2, h3, h4, h5⟩

/-! ## Texts and documents -/

theorem RD.mono {ps qs : List Str} {t : Str} {d : Doc} (h : RD ps t d) (hp : ps <+: qs) : RD qs t d :=
  ⟨by rw [renderDoc_mono h.2 hp]; exact h.1, h.2.mono hp⟩

theorem RDs.mono {ps qs : List Str} {ts : List Str} {ds : List Doc} (h : RDs ps ts ds) (hp : ps <+: qs) :
    RDs qs ts ds := by
  refine ⟨?_, fun d hd => (h.2 d hd).mono hp⟩
  rw [h.1]
  exact List.map_congr_left fun d hd => (renderDoc_mono (h.2 d hd) hp).symm

theorem rd_str (ps : List Str) (t : Str) : RD ps t (Doc.ofStr t) := ⟨(renderDoc_ofStr ps t).symm, inRange_ofStr ps t⟩

theorem rd_nil (ps : List Str) : RD ps [] [] := ⟨rfl, inRange_nil ps⟩

theorem RD.append {ps : List Str} {t u : Str} {d e : Doc} (h : RD ps t d) (h' : RD ps u e) :
    RD ps (t ++ u) (d ++ e) :=
  ⟨by rw [renderDoc_append, h.1, h'.1], inRange_append.2 ⟨h.2, h'.2⟩⟩

theorem RD.trim {ps : List Str} (hm : Marks ps) {t : Str} {d : Doc} (h : RD ps t d) :
    RD ps (trimSpace t) (trimDoc d) :=
  ⟨by rw [renderDoc_trim hm h.2, h.1], fun k hk => h.2 k (by rwa [binds_trimDoc] at hk)⟩

theorem RD.nil_iff {ps : List Str} (hm : Marks ps) {t : Str} {d : Doc} (h : RD ps t d) : t = [] ↔ d = [] := by
  rw [h.1]; exact renderDoc_eq_nil hm h.2

theorem RD.ite {ps : List Str} (hm : Marks ps) {t : Str} {d : Doc} (h : RD ps t d) {t1 t2 : Str} {d1 d2 : Doc}
    (h1 : RD ps t1 d1) (h2 : RD ps t2 d2) :
    RD ps (if t = [] then t1 else t2) (if d = [] then d1 else d2) := by
  by_cases hd : d = []
  · rw [if_pos hd, if_pos ((h.nil_iff hm).2 hd)]; exact h1
  · rw [if_neg hd, if_neg fun ht => hd ((h.nil_iff hm).1 ht)]; exact h2

theorem rds_nil (ps : List Str) : RDs ps [] [] := ⟨rfl, by simp⟩

theorem RDs.cons {ps : List Str} {t : Str} {ts : List Str} {d : Doc} {ds : List Doc} (h : RD ps t d)
    (h' : RDs ps ts ds) : RDs ps (t :: ts) (d :: ds) := by
  refine ⟨by rw [h.1, h'.1]; rfl, ?_⟩
  intro x hx
  rcases List.mem_cons.1 hx with rfl | hx
  · exact h.2
  · exact h'.2 x hx

theorem RD.single {ps : List Str} {t : Str} {d : Doc} (h : RD ps t d) : RDs ps [t] [d] := RDs.cons h (rds_nil ps)

theorem RDs.append {ps : List Str} {ts us : List Str} {ds es : List Doc} (h : RDs ps ts ds) (h' : RDs ps us es) :
    RDs ps (ts ++ us) (ds ++ es) := by
  refine ⟨by rw [h.1, h'.1, List.map_append], fun d hd => ?_⟩
  rcases List.mem_append.1 hd with hd | hd
  · exact h.2 d hd
  · exact h'.2 d hd

theorem RDs.join {ps : List Str} (sep : Str) {ts : List Str} {ds : List Doc} (h : RDs ps ts ds) :
    RD ps (strJoin sep ts) (joinDocs sep ds) := by
  induction ds generalizing ts with
  | nil => rw [h.1]; exact rd_nil ps
  | cons d ds ih =>
    obtain ⟨h1, h2⟩ := h
    have hd : RD ps (renderDoc ps d) d := ⟨rfl, h2 d (by simp)⟩
    have hds := ih (ts := ds.map (renderDoc ps)) ⟨rfl, fun x hx => h2 x (by simp [hx])⟩
    subst h1
    cases ds with
    | nil => exact hd
    | cons e es => exact (hd.append (rd_str ps sep)).append hds

theorem RDs.filter {ps : List Str} (hm : Marks ps) {ts : List Str} {ds : List Doc} (h : RDs ps ts ds) :
    RDs ps (ts.filter (· ≠ [])) (ds.filter (· ≠ [])) := by
  refine ⟨?_, fun d hd => h.2 d (List.mem_filter.1 hd).1⟩
  obtain ⟨rfl, h2⟩ := h
  induction ds with
  | nil => rfl
  | cons d ds ih =>
    have hd := renderDoc_eq_nil hm (h2 d (by simp))
    have := ih fun x hx => h2 x (by simp [hx])
    rw [List.map_cons]
    by_cases hx : d = []
    · rw [List.filter_cons_of_neg (by simp [hd.2 hx]), List.filter_cons_of_neg (by simp [hx]), this]
    · rw [List.filter_cons_of_pos (by simpa using fun h => hx (hd.1 h)), List.filter_cons_of_pos (by simp [hx]),
        List.map_cons, this]

theorem RD.nonEmpty {ps : List Str} (hm : Marks ps) {t : Str} {d : Doc} (h : RD ps t d) :
    RDs ps (nonEmpty t) (if d = [] then [] else [d]) := by
  unfold Sqlf.nonEmpty
  by_cases hd : d = []
  · rw [if_pos hd, if_pos ((h.nil_iff hm).2 hd)]; exact rds_nil ps
  · rw [if_neg hd, if_neg fun ht => hd ((h.nil_iff hm).1 ht)]; exact h.single

/-- A decorated document as a clause. -/
theorem clauseDocs_decorate (kw : Str) (hk : kw ≠ []) (d : Doc) :
    (if decorateDoc kw [] d = [] then [] else [decorateDoc kw [] d]) = clauseDocs kw (trimDoc d) := by
  unfold decorateDoc clauseDocs
  by_cases h : trimDoc d = []
  · rw [if_pos h, if_pos h, if_pos rfl]
  · rw [if_neg h, if_neg h, if_neg hk, if_pos rfl, List.append_nil, if_neg]
    simp [h]

end Sqlf
