import Verif.Model.Val
/-!
# `CommitArg` of one context called by several goroutines

`CommitArg` (context_args.go:16-18, 37-40, 57-65) as steps, each of which reads or writes one of the variables
`args` and `dict` of the store.  Memory is sequentially consistent, a value is written in one step, slices are lists: that
`append` may write into an array which the slices of two goroutines share is left out, and so is the run-time check that
stops programs which access a Go map from several goroutines at once.  All of this matters for calls that overlap only,
and the schedules of the counterexamples to C118 are ones of the program: each `append` there is to a nil slice, so it
makes an array of its own, and no two accesses to the map happen at once.
-/

namespace Sqlf

/-- Where a goroutine is. -/
inductive CommitPhase where
  | outside                                    -- not in a call
  | missing                                    -- `dict` does not have the value (context_args.go:58-60)
  | counted (i : Nat)                          -- `i := len(s.args) + 1` (context_args.go:61)
  | entered (i : Nat)                          -- `s.dict[arg] = i` (context_args.go:62)
  | appending (mark : Str) (read : List Val)   -- `append(s.args, arg)` has read `s.args` (context_args.go:38, 63)
  | panicked                                   -- the value cannot be a map key (context_args.go:58)

/-- A goroutine that commits the values `todo` one after the other; `got` are the placeholders it got so far. -/
structure Committer where
  todo : List Val
  phase : CommitPhase
  got : List Str

/-- The next step of a goroutine (context_args.go:37-40, 57-65). -/
def commitStep (st : Store) (g : Committer) : Store × Committer :=
  match g.todo with
  | [] => (st, g)
  | v :: rest =>
    match g.phase with
    | .outside =>
      if st.isDollar then
        if !v.hashable then (st, { g with phase := .panicked })
        else
          match dictLookup st.dict v with
          | some i => (st, { g with todo := rest, got := g.got ++ [lit "$" ++ natDigits i] })
          | none => (st, { g with phase := .missing })
      else (st, { g with phase := .appending (lit "?") st.args })
    | .missing => (st, { g with phase := .counted (st.args.length + 1) })
    | .counted i => ({ st with dict := (v, i) :: st.dict }, { g with phase := .entered i })
    | .entered i => (st, { g with phase := .appending (lit "$" ++ natDigits i) st.args })
    | .appending mark read => ({ st with args := read ++ [v] }, { todo := rest, phase := .outside, got := g.got ++ [mark] })
    | .panicked => (st, g)

/-- A context and the goroutines that commit to it. -/
structure Sharing where
  store : Store
  gs : Nat → Committer

/-- Goroutine `i` makes a step. -/
def Sharing.step (s : Sharing) (i : Nat) : Sharing :=
  let r := commitStep s.store (s.gs i)
  { store := r.1, gs := fun j => if j = i then r.2 else s.gs j }

/-- The steps of a schedule. -/
def Sharing.run (s : Sharing) (schedule : List Nat) : Sharing := schedule.foldl Sharing.step s

/-- Goroutines that are about to commit the values `work i`, with the context of the store `st`. -/
def sharing (st : Store) (work : Nat → List Val) : Sharing :=
  { store := st, gs := fun i => { todo := work i, phase := .outside, got := [] } }

end Sqlf
