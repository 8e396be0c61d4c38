import Verif.Proofs.SimAt
/-!
# Query builders and their meanings
-/

namespace Sqlf

open Spec

/-- Building `b`, with enough fuel, corresponds to `f`. -/
def Sims (W : World) (L : GoLib) (b : Builder) (f : Sem) : Prop :=
  ∃ N, ∀ n, N ≤ n → ∀ ctx, BuiltinCtx ctx → BuildSim W (run L n ctx (.build b)) f

/-- All of them correspond, with the same fuel. -/
def SimsL (W : World) (L : GoLib) (N : Nat) (child : Builder → Sem) (bs : List Builder) : Prop :=
  ∀ n, N ≤ n → ∀ ctx, BuiltinCtx ctx → ∀ b ∈ bs, BuildSim W (run L n ctx (.build b)) (child b)

theorem simsL_of {W : World} {L : GoLib} {child : Builder → Sem} {bs : List Builder}
    (h : ∀ b ∈ bs, Sims W L b (child b)) : ∃ N, SimsL W L N child bs := by
  induction bs with
  | nil => exact ⟨0, fun _ _ _ _ b hb => by cases hb⟩
  | cons b bs ih =>
    obtain ⟨N1, h1⟩ := h b (by simp)
    obtain ⟨N2, h2⟩ := ih fun c hc => h c (by simp [hc])
    refine ⟨max N1 N2, fun n hn ctx hb c hc => ?_⟩
    rcases List.mem_cons.1 hc with rfl | hc
    · exact h1 n (by omega) ctx hb
    · exact h2 n (by omega) ctx hb c hc

theorem SimsL.mono {W : World} {L : GoLib} {N N' : Nat} {child : Builder → Sem} {bs cs : List Builder}
    (h : SimsL W L N child bs) (hN : N ≤ N') (hs : ∀ c ∈ cs, c ∈ bs) : SimsL W L N' child cs :=
  fun n hn ctx hb c hc => h n (by omega) ctx hb c (hs c hc)

/-! ## Builders with query builders in them -/

theorem semQL_eq (L : GoLib) (parse : Str → Option (List Expr)) (bad : Val → Bool) (env : Nat → Sem)
    (bs : List Builder) : semQL L parse bad env bs = bs.map (semQ L parse bad env) := by
  induction bs with
  | nil => rfl
  | cons b bs ih => rw [semQL, ih]; rfl

theorem fragment_sims {W : World} {L : GoLib} {child : Builder → Sem} {raw : Str} {args : List Val}
    {frags : List Builder} {pre suf : Str} {N : Nat} (h : SimsL W L N child frags) {m : Nat}
    (hm : N + raw.length + max args.length frags.length + 1 ≤ m) {ctx : Ctx} (hb : BuiltinCtx ctx) :
    BuildSim W (buildFragment L (run L m) m ctx (.mk raw args frags pre suf))
      (fragmentSem L (parseO L) (badFor W.s0) raw args (frags.map child) pre suf) := by
  refine fragment_sim hb raw args frags pre suf _ N (by simp) ?_ m hm
  intro n hn ctx hb k b f h1 h2
  rw [List.getElem?_map, h1] at h2
  cases h2
  exact h n hn ctx hb b (List.mem_of_getElem? h1)

mutual
theorem semQ_sims {W : World} {L : GoLib} {env : Nat → Sem} : ∀ (b : Builder), NoCode b →
    (∀ r ∈ qbRefs b, Sims W L (.qb r) (env r)) → Sims W L b (semQ L (parseO L) (badFor W.s0) env b)
  | .frag f, hc, hr => by
    rw [NoCode] at hc
    rw [qbRefs] at hr
    have h := semQF_sims f hc hr
    rw [semQ]
    exact h
  | .column t f, hc, hr => by
    rw [NoCode] at hc
    rw [qbRefs] at hr
    obtain ⟨N, h⟩ := semQF_sims (W := W) f hc hr
    rw [semQ]
    refine ⟨N + 1, fun n hn ctx hb => ?_⟩
    have := h n (by omega) ctx hb
    cases n with
    | zero => omega
    | succ n => exact this
  | .nil, _, _ => ⟨1, fun n hn ctx _ => by
    obtain ⟨n, rfl⟩ : ∃ k, n = k + 1 := ⟨n - 1, by omega⟩
    exact buildSim_panic W (p := .nilDereference) rfl⟩
  | .nilColumn, _, _ => ⟨1, fun n hn ctx _ => by
    obtain ⟨n, rfl⟩ : ∃ k, n = k + 1 := ⟨n - 1, by omega⟩
    exact buildSim_panic W (p := .nilDereference) rfl⟩
  | .nilFrag, _, _ => ⟨1, fun n hn ctx _ => by
    obtain ⟨n, rfl⟩ : ∃ k, n = k + 1 := ⟨n - 1, by omega⟩
    exact buildSim_text W []⟩
  | .columnNilFrag _, _, _ => ⟨1, fun n hn ctx _ => by
    obtain ⟨n, rfl⟩ : ∃ k, n = k + 1 := ⟨n - 1, by omega⟩
    exact buildSim_text W []⟩
  | .nilQb, _, _ => ⟨1, fun n hn ctx _ => by
    obtain ⟨n, rfl⟩ : ∃ k, n = k + 1 := ⟨n - 1, by omega⟩
    exact buildSim_text W []⟩
  | .table t, _, _ => ⟨1, fun n hn ctx _ => by
    obtain ⟨n, rfl⟩ : ∃ k, n = k + 1 := ⟨n - 1, by omega⟩
    exact buildSim_text W t⟩
  | .aliased a b, _, _ => ⟨1, fun n hn ctx _ => by
    obtain ⟨n, rfl⟩ : ∃ k, n = k + 1 := ⟨n - 1, by omega⟩
    have h : TableAliased.appliedName ⟨a, b⟩ = if b = [] then a else b := by
      simp only [TableAliased.appliedName]
      by_cases hb : b = [] <;> simp [hb]
    rw [semQ, ← h]
    exact buildSim_text W _⟩
  | .qb r, _, hr => by
    rw [semQ]
    exact hr r (by simp [qbRefs])
  | .custom _, hc, _ => by simp [NoCode] at hc
theorem semQF_sims {W : World} {L : GoLib} {env : Nat → Sem} : ∀ (f : Fragment), NoCodeF f →
    (∀ r ∈ qbRefsF f, Sims W L (.qb r) (env r)) →
    Sims W L (.frag f) (semQF L (parseO L) (badFor W.s0) env f)
  | .mk raw args frags pre suf, hc, hr => by
    rw [NoCodeF] at hc
    rw [qbRefsF] at hr
    rw [semQF, semQL_eq]
    obtain ⟨N, h⟩ := simsL_of (semQL_sims (W := W) frags hc hr)
    refine ⟨N + raw.length + max args.length frags.length + 2, fun n hn ctx hb => ?_⟩
    obtain ⟨n, rfl⟩ : ∃ k, n = k + 1 := ⟨n - 1, by omega⟩
    exact fragment_sims h (by omega) hb
theorem semQL_sims {W : World} {L : GoLib} {env : Nat → Sem} : ∀ (bs : List Builder), NoCodeL bs →
    (∀ r ∈ qbRefsL bs, Sims W L (.qb r) (env r)) →
    ∀ b ∈ bs, Sims W L b (semQ L (parseO L) (badFor W.s0) env b)
  | [], _, _, b, hb => by cases hb
  | x :: bs, hc, hr, b, hb => by
    rw [NoCodeL] at hc
    simp only [qbRefsL, List.mem_append] at hr
    rcases List.mem_cons.1 hb with h | h
    · rw [h]; exact semQ_sims x hc.1 fun r h => hr r (.inl h)
    · exact semQL_sims bs hc.2 (fun r h => hr r (.inr h)) b h
end

/-! ## The clauses of a query -/

/-- What is kept while a query is built: the memory is `T` but for prefixes of SELECT clauses; `log` was
printed, and maybe more. -/
def memory (T : List QB) (log : List Str) : List QB → List Str → Prop := fun h g => log <+: g ∧ HeapRel SelectsOnly T h

/-- … with the flags of the caller. -/
def KeptMem (T : List QB) (log : List Str) (a f : List Nat) (s : St) : Prop :=
  memory T log s.heap s.log ∧ s.usedA = a ∧ s.usedF = f

theorem BuildSim.at {s0 : Store} {T : List QB} {g : List Str} {m : M Str} {f : Sem}
    (h : BuildSim ⟨s0, memory T g⟩ m f) {ps : List Str} {s : St} {log : List Val}
    (hs : commitAll s0 log = some (ps, s.store)) {a u : List Nat} (hK : KeptMem T g a u s) :
    SimAt s0 (KeptMem T g a u) RD ps log (m s) (f log) := by
  obtain ⟨ps', h1, ⟨h2, h3, h4⟩, h5, h6, h7⟩ := h ps s log hs hK.1
  exact ⟨ps', h5, h6, h1, ⟨h2, h3.trans hK.2.1, h4.trans hK.2.2⟩, (matchesR_RD ..).2 h7⟩

/-- A loop over builders, some of which are left out. -/
theorem collect_sim {s0 : Store} {K : St → Prop} {α : Type} {f : α → M (Option Str)} {keep : α → Bool}
    {m : α → M Str} {sem : α → Sem} {post : α → Str → Option Str} {as : List α}
    (h0 : ∀ a ∈ as, keep a = false → f a = M.pure none)
    (h1 : ∀ a ∈ as, keep a = true → f a = M.bind (m a) fun q => M.pure (post a q))
    (hs : ∀ a ∈ as, keep a = true → ∀ ps s log, commitAll s0 log = some (ps, s.store) → K s →
      SimAt s0 K RD ps log (m a s) (sem a log)) :
    ∀ ps s log, commitAll s0 log = some (ps, s.store) → K s →
      SimAt s0 K (fun ps l ds => ds.length = (as.filter keep).length ∧ ∃ ts, RDs ps ts ds ∧
          l = ((as.filter keep).zip ts).filterMap fun p => post p.1 p.2)
        ps log (collectM f as s) (inTurn ((as.filter keep).map sem) log) := by
  induction as with
  | nil =>
    intro ps s log hc hK
    exact SimAt.pure hc hK ⟨rfl, [], rds_nil ps, rfl⟩
  | cons a as ih =>
    intro ps s log hc hK
    have ih := ih (fun a ha => h0 a (by simp [ha])) (fun a ha => h1 a (by simp [ha])) (fun a ha => hs a (by simp [ha]))
    by_cases hk : keep a = true
    · rw [List.filter_cons_of_pos hk, collectM, h1 a (by simp) hk]
      show SimAt _ _ _ _ _ _ (SemOf.bind (sem a) (fun d => (inTurn _).bind fun ds => .pure (d :: ds)) log)
      have e : M.bind (M.bind (m a) fun q => M.pure (post a q)) (fun o => M.bind (collectM f as) fun l => M.pure (o.toList ++ l)) s =
          M.bind (m a) (fun q => M.bind (collectM f as) fun l => M.pure ((post a q).toList ++ l)) s := by
        unfold M.bind
        rcases m a s with ⟨o, s'⟩
        cases o <;> rfl
      rw [e]
      refine SimAt.bind (hs a (by simp) hk ps s log hc hK) (fun _ h => h) ?_
      intro ps1 s1 log1 q d hp hc1 hK1 hq
      refine SimAt.bind (ih ps1 s1 log1 hc1 hK1) (fun _ h => h) ?_
      rintro ps2 s2 log2 l ds hp2 hc2 hK2 ⟨hl, ts, hts, rfl⟩
      refine SimAt.pure hc2 hK2 ⟨by simp [hl], q :: ts, RDs.cons (hq.mono hp2) hts, ?_⟩
      rw [List.zip_cons_cons, List.filterMap_cons]
      cases post a q <;> rfl
    · rw [List.filter_cons_of_neg hk, collectM, h0 a (by simp) (by simpa using hk)]
      have e : M.bind (M.pure none) (fun o => M.bind (collectM f as) fun l => M.pure (Option.toList o ++ l)) s =
          collectM f as s := by
        unfold M.bind M.pure
        dsimp only
        rcases collectM f as s with ⟨o, s'⟩
        cases o <;> rfl
      rw [e]
      exact ih ps s log hc hK

/-- A list clause. -/
theorem list_sim {s0 : Store} {T : List QB} {g : List Str} {L : GoLib} {child : Builder → Sem} {N : Nat}
    {bs : List Builder} (h : SimsL ⟨s0, memory T g⟩ L N child bs) {sep : String} (hsep : sep = ", " ∨ sep = " AND ")
    {kw : Str} {m : Nat} (hm : N + 60 + bs.length ≤ m) {ctx : Ctx} (hb : BuiltinCtx ctx)
    {ps : List Str} {s : St} {log : List Val} (hs : commitAll s0 log = some (ps, s.store)) {a u : List Nat}
    (hK : KeptMem T g a u s) :
    SimAt s0 (KeptMem T g a u) (fun ps t ds => RD ps t (decorateDoc kw [] (joinDocs (lit sep) (ds.filter (· ≠ [])))))
      ps log (buildFragment L (run L m) m ctx (.mk (joinRaw sep) [] bs kw []) s) (inList (bs.map child) log) := by
  have hp : parseO L (joinRaw sep) = some [.call (lit "join") [.str (lit "#" ++ lit "fragment"), .str (lit sep)]] := by
    unfold parseO
    rcases hsep with rfl | rfl
    · rw [(parse_joinRaw L).1]; rfl
    · rw [(parse_joinRaw L).2]; rfl
  have hf : parseO L (lit "#" ++ lit "fragment") = some [.func (lit "fragment"), .plain []] := by
    unfold parseO
    rw [show parse L (lit "#" ++ lit "fragment") = .ok [.func (lit "fragment"), .plain []] by kernel_rfl]
    rfl
  have hlen : (joinRaw sep).length ≤ 40 := by
    rcases hsep with rfl | rfl <;> decide +kernel
  have hsim := fragment_sims (raw := joinRaw sep) (args := []) (pre := kw) (suf := []) h (m := m)
    (by simp only [List.length_nil, Nat.zero_max]; omega) hb
  rw [fragmentSem_list L (parseO L) _ sep kw _ hp hf] at hsim
  exact SimAt.map (hsim.at hs hK)

end Sqlf
