import Verif.Spec.SharedContext
/-!
# Contexts shared by goroutines: lemmas
-/

namespace Sqlf

open Spec

theorem byGoroutine_append {α : Type} (log : List (Nat × α)) (i j : Nat) (v : α) :
    byGoroutine (log ++ [(i, v)]) j = if j = i then byGoroutine log j ++ [v] else byGoroutine log j := by
  unfold byGoroutine
  by_cases h : j = i
  · subst h; simp
  · have : ¬ i = j := fun e => h e.symm
    simp [h, this]

/-- What the call that a goroutine is in will return and leave, if no other goroutine makes a step. -/
def CommitPhase.finish (st : Store) (v : Val) : CommitPhase → Option (Str × Store)
  | .missing => some (lit "$" ++ natDigits (st.args.length + 1),
      { st with dict := (v, st.args.length + 1) :: st.dict, args := st.args ++ [v] })
  | .counted k => some (lit "$" ++ natDigits k, { st with dict := (v, k) :: st.dict, args := st.args ++ [v] })
  | .entered k => some (lit "$" ++ natDigits k, { st with args := st.args ++ [v] })
  | .appending m l => some (m, { st with args := l ++ [v] })
  | _ => none

/-- What holds when calls do not overlap: `log` are the calls that returned, `st` the store after them. -/
structure Calm (st0 : Store) (work : Nat → List Val) (s : Sharing) (log : List (Nat × Val × Str)) (st : Store) : Prop where
  calls : commitAll st0 (log.map (·.2.1)) = some (log.map (·.2.2), st)
  done : ∀ i, work i = (byGoroutine log i).map (·.1) ++ (s.gs i).todo ∧ (s.gs i).got = (byGoroutine log i).map (·.2)
  calm : (∀ i, ¬ Committer.Inside (s.gs i)) → s.store = st
  mid : ∀ i v rest, Committer.Inside (s.gs i) → (s.gs i).todo = v :: rest → (s.gs i).phase.finish s.store v = st.commit v

theorem calm_start (st0 : Store) (work : Nat → List Val) : Calm st0 work (sharing st0 work) [] st0 where
  calls := rfl
  done := fun i => ⟨rfl, rfl⟩
  calm := fun _ => rfl
  mid := fun i v rest h => absurd rfl h.1

theorem commitAll_returns_snoc {st0 st st' : Store} {vs : List Val} {ps : List Str} {v : Val} {p : Str}
    (h : commitAll st0 vs = some (ps, st)) (hv : st.commit v = some (p, st')) :
    commitAll st0 (vs ++ [v]) = some (ps ++ [p], st') := by
  induction vs generalizing st0 ps with
  | nil => simp only [commitAll, Option.some.injEq, Prod.mk.injEq] at h; obtain ⟨rfl, rfl⟩ := h; simp [commitAll, hv]
  | cons w ws ih =>
    simp only [commitAll, List.cons_append] at h ⊢
    cases hc : st0.commit w with
    | none => rw [hc] at h; cases h
    | some r =>
      rw [hc] at h
      dsimp only at h ⊢
      cases ha : commitAll r.2 ws with
      | none => rw [ha] at h; cases h
      | some q =>
        rw [ha] at h
        dsimp only at h
        simp only [Option.some.injEq, Prod.mk.injEq] at h
        obtain ⟨rfl, rfl⟩ := h
        rw [ih ha]
        rfl

/-- Goroutine `i` goes on in a call, or enters one. -/
theorem calm_on {st0 : Store} {work : Nat → List Val} {s : Sharing} {log : List (Nat × Val × Str)} {st : Store}
    (h : Calm st0 work s log st) {i : Nat} (hone : ∀ j, Committer.Inside (s.gs j) → j = i) (st' : Store) (g : Committer)
    (hg : g.todo = (s.gs i).todo ∧ g.got = (s.gs i).got) (hin : Committer.Inside g)
    (hf : ∀ v rest, (s.gs i).todo = v :: rest → g.phase.finish st' v = st.commit v) :
    Calm st0 work ⟨st', fun j => if j = i then g else s.gs j⟩ log st where
  calls := h.calls
  done := fun j => by
    dsimp only
    by_cases hj : j = i
    · rw [if_pos hj, hg.1, hg.2, ← hj]; exact h.done j
    · rw [if_neg hj]; exact h.done j
  calm := fun hn => absurd (by simpa using hin) (hn i)
  mid := fun j v rest hj ht => by
    dsimp only at hj ht ⊢
    by_cases e : j = i
    · rw [if_pos e] at hj ht ⊢; exact hf v rest (hg.1 ▸ ht)
    · rw [if_neg e] at hj; exact absurd (hone j hj) e

/-- Goroutine `i` returns from a call. -/
theorem calm_return {st0 : Store} {work : Nat → List Val} {s : Sharing} {log : List (Nat × Val × Str)} {st : Store}
    (h : Calm st0 work s log st) {i : Nat} (hone : ∀ j, Committer.Inside (s.gs j) → j = i) {st' : Store} {v : Val} {m : Str}
    {rest : List Val} {g : Committer} (ht : (s.gs i).todo = v :: rest) (hc : st.commit v = some (m, st'))
    (hg : g.todo = rest ∧ g.got = (s.gs i).got ++ [m]) (hout : ¬ Committer.Inside g) :
    Calm st0 work ⟨st', fun j => if j = i then g else s.gs j⟩ (log ++ [(i, v, m)]) st' where
  calls := by simpa using commitAll_returns_snoc h.calls hc
  done := fun j => by
    dsimp only
    rw [byGoroutine_append]
    by_cases hj : j = i
    · rw [if_pos hj, if_pos hj, hg.1, hg.2]
      subst hj
      have := h.done j
      rw [ht] at this
      exact ⟨by rw [this.1]; simp, by rw [this.2]; simp⟩
    · rw [if_neg hj, if_neg hj]; exact h.done j
  calm := fun _ => rfl
  mid := fun j v rest hj _ => by
    dsimp only at hj
    by_cases e : j = i
    · rw [if_pos e] at hj; exact absurd hj hout
    · rw [if_neg e] at hj; exact absurd (hone j hj) e

/-- A goroutine outside of calls that stays outside. -/
theorem calm_stay {st0 : Store} {work : Nat → List Val} {s : Sharing} {log : List (Nat × Val × Str)} {st : Store}
    (h : Calm st0 work s log st) {i : Nat} (g : Committer)
    (hg : g.todo = (s.gs i).todo ∧ g.got = (s.gs i).got) (hin : Committer.Inside g ↔ Committer.Inside (s.gs i))
    (hp : Committer.Inside g → g.phase = (s.gs i).phase) :
    Calm st0 work ⟨s.store, fun j => if j = i then g else s.gs j⟩ log st where
  calls := h.calls
  done := fun j => by
    dsimp only
    by_cases hj : j = i
    · rw [if_pos hj, hg.1, hg.2, ← hj]; exact h.done j
    · rw [if_neg hj]; exact h.done j
  calm := fun hn => h.calm fun j hj => hn j (by
    dsimp only
    by_cases e : j = i
    · rw [if_pos e]; exact hin.2 (e ▸ hj)
    · rw [if_neg e]; exact hj)
  mid := fun j v rest hj ht => by
    dsimp only at hj ht ⊢
    by_cases e : j = i
    · rw [if_pos e] at hj ht ⊢
      rw [hp hj]
      exact h.mid i v rest (hin.1 hj) (hg.1 ▸ ht)
    · rw [if_neg e] at hj ht ⊢; exact h.mid j v rest hj ht

theorem calm_step {st0 : Store} {work : Nat → List Val} {s : Sharing} {log : List (Nat × Val × Str)} {st : Store}
    (h : Calm st0 work s log st) {i : Nat} (hone : ∀ j, Committer.Inside (s.gs j) → j = i) :
    ∃ log' st', Calm st0 work (s.step i) log' st' := by
  unfold Sharing.step
  match ht : (s.gs i).todo with
  | [] =>
    have he : commitStep s.store (s.gs i) = (s.store, s.gs i) := by unfold commitStep; rw [ht]
    rw [he]
    exact ⟨log, st, calm_stay h _ ⟨rfl, rfl⟩ Iff.rfl (fun _ => rfl)⟩
  | v :: rest =>
    match hp : (s.gs i).phase with
    | .panicked =>
      have he : commitStep s.store (s.gs i) = (s.store, s.gs i) := by unfold commitStep; rw [ht, hp]
      rw [he]
      exact ⟨log, st, calm_stay h _ ⟨rfl, rfl⟩ Iff.rfl (fun _ => rfl)⟩
    | .missing =>
      have hin : Committer.Inside (s.gs i) := by constructor <;> rw [hp] <;> nofun
      have he : commitStep s.store (s.gs i) = (s.store, { s.gs i with phase := .counted (s.store.args.length + 1) }) := by
        simp [commitStep, ht, hp]
      rw [he]
      refine ⟨log, st, calm_on h hone _ _ ⟨rfl, rfl⟩ ⟨nofun, nofun⟩ fun w r hw => ?_⟩
      rw [← h.mid i w r hin hw, hp]; rfl
    | .counted k =>
      have hin : Committer.Inside (s.gs i) := by constructor <;> rw [hp] <;> nofun
      have he : commitStep s.store (s.gs i) =
          ({ s.store with dict := (v, k) :: s.store.dict }, { s.gs i with phase := .entered k }) := by
        simp [commitStep, ht, hp]
      rw [he]
      refine ⟨log, st, calm_on h hone _ _ ⟨rfl, rfl⟩ ⟨nofun, nofun⟩ fun w r hw => ?_⟩
      rw [← h.mid i w r hin hw, hp]
      rw [ht] at hw; cases hw; rfl
    | .entered k =>
      have hin : Committer.Inside (s.gs i) := by constructor <;> rw [hp] <;> nofun
      have he : commitStep s.store (s.gs i) =
          (s.store, { s.gs i with phase := .appending (lit "$" ++ natDigits k) s.store.args }) := by
        simp [commitStep, ht, hp]
      rw [he]
      refine ⟨log, st, calm_on h hone _ _ ⟨rfl, rfl⟩ ⟨nofun, nofun⟩ fun w r hw => ?_⟩
      rw [← h.mid i w r hin hw, hp]; rfl
    | .appending m l =>
      have hin : Committer.Inside (s.gs i) := by constructor <;> rw [hp] <;> nofun
      have he : commitStep s.store (s.gs i) = ({ s.store with args := l ++ [v] },
          { todo := rest, phase := .outside, got := (s.gs i).got ++ [m] }) := by simp [commitStep, ht, hp]
      rw [he]
      have hm := h.mid i v rest hin ht
      rw [hp] at hm
      exact ⟨_, _, calm_return h hone ht hm.symm ⟨rfl, rfl⟩ (fun hi => hi.1 rfl)⟩
    | .outside =>
      have hout : ¬ Committer.Inside (s.gs i) := fun hi => hi.1 hp
      have hs : s.store = st := h.calm fun j hj => hout (hone j hj ▸ hj)
      by_cases hd : s.store.isDollar = true
      · by_cases hh : v.hashable = true
        · match hl : dictLookup s.store.dict v with
          | some k =>
            have he : commitStep s.store (s.gs i) = (s.store,
                { s.gs i with todo := rest, got := (s.gs i).got ++ [lit "$" ++ natDigits k] }) := by
              simp [commitStep, ht, hp, hd, hh, hl]
            rw [he]
            exact ⟨_, _, calm_return h hone ht (by rw [← hs]; simp [Store.commit, hd, hh, hl]) ⟨rfl, rfl⟩ (fun hi => hi.1 hp)⟩
          | none =>
            have he : commitStep s.store (s.gs i) = (s.store, { s.gs i with phase := .missing }) := by
              simp [commitStep, ht, hp, hd, hh, hl]
            rw [he]
            refine ⟨log, st, calm_on h hone _ _ ⟨rfl, rfl⟩ ⟨nofun, nofun⟩ fun w r hw => ?_⟩
            rw [ht] at hw; cases hw
            rw [← hs]; simp [Store.commit, hd, hh, hl, CommitPhase.finish]
        · have he : commitStep s.store (s.gs i) = (s.store, { s.gs i with phase := .panicked }) := by
            simp [commitStep, ht, hp, hd, hh]
          rw [he]
          exact ⟨log, st, calm_stay h _ ⟨rfl, rfl⟩ ⟨fun hi => absurd rfl hi.2, fun hi => absurd hi hout⟩
            (fun hi => absurd rfl hi.2)⟩
      · have he : commitStep s.store (s.gs i) = (s.store, { s.gs i with phase := .appending (lit "?") s.store.args }) := by
          simp [commitStep, ht, hp, hd]
        rw [he]
        refine ⟨log, st, calm_on h hone _ _ ⟨rfl, rfl⟩ ⟨nofun, nofun⟩ fun w r hw => ?_⟩
        rw [← hs]; simp [Store.commit, hd, CommitPhase.finish]

theorem calm_run {st0 : Store} {work : Nat → List Val} {s : Sharing} {log : List (Nat × Val × Str)} {st : Store}
    (h : Calm st0 work s log st) (schedule : List Nat) (hone : OneAtATime s schedule) :
    ∃ log' st', Calm st0 work (s.run schedule) log' st' := by
  induction schedule generalizing s log st with
  | nil => exact ⟨log, st, h⟩
  | cons i rest ih =>
    obtain ⟨log1, st1, h1⟩ := calm_step h (i := i) (fun j hj => hone 0 i rfl j hj)
    exact ih h1 fun k j hk l hl => hone (k + 1) j hk l hl

end Sqlf
