import Verif.Proofs.Ev
import Verif.Proofs.Meaning
import Verif.Props.Reader
/-!
# Templates without references
-/

namespace Sqlf

open Spec

/-- All expressions are texts. -/
def AllPlain (es : List Expr) : Prop := ∀ e ∈ es, ∃ t, e = .plain t

theorem clause_plain {L : GoLib} {ctx : Ctx} {es : List Expr} (h : AllPlain es) (s : St) :
    Ev (fun n => buildClause L (run L n) n ctx es) s (.ok (plainText es), s) := by
  induction es with
  | nil => exact .const _ _
  | cons e es ih =>
    obtain ⟨t, rfl⟩ := h e List.mem_cons_self
    exact .clause_cons (.const _ _) (ih fun e he => h e (List.mem_cons_of_mem _ he))

theorem allPlain_glue {es : List Expr} : AllPlain (glue es) ↔ AllPlain es := by
  induction es with
  | nil => exact Iff.rfl
  | cons e es ih =>
    cases e with
    | plain s =>
      have h1 : AllPlain (.plain s :: es) ↔ AllPlain es := by simp [AllPlain]
      rw [h1, ← ih, glue]
      generalize glue es = r
      split
      · exact Iff.rfl
      · split <;> simp [AllPlain]
    | bindVar a b => simp [glue, AllPlain]
    | func a => simp [glue, AllPlain]
    | call a b => simp [glue, AllPlain]

theorem source_plain {L : GoLib} {ps : List (Str × Expr)} {a : Bool} (h : Segments L a ps)
    (hp : AllPlain (ps.map (·.2))) : plainText (ps.map (·.2)) = source ps := by
  induction ps generalizing a with
  | nil => rfl
  | cons p ps ih =>
    obtain ⟨src, e⟩ := p
    obtain ⟨h1, h2⟩ := h
    obtain ⟨t, he⟩ := hp e List.mem_cons_self
    dsimp only at h1 h2
    subst he
    have hs : src = t := by cases h1 <;> rfl
    subst hs
    show src ++ plainText (ps.map (·.2)) = src ++ source ps
    rw [ih h2 fun e he => hp e (List.mem_cons_of_mem _ he)]

theorem plainText_eq {L : GoLib} {raw : Str} (h0 : 0 ∉ raw) {es : List Expr} (h : parse L raw = .ok es) (hp : AllPlain es) :
    plainText es = raw := by
  obtain ⟨ps, h1, h2, h3⟩ := Props.C06_nothing_dropped_partial L raw h0 es h
  rw [← plainText_glue, h3, plainText_glue, source_plain h2 ?_, h1]
  exact allPlain_glue.1 (h3 ▸ allPlain_glue.2 hp)

theorem fragment_plain {L : GoLib} {ctx : Ctx} {raw : Str} {es : List Expr} (h : parse L raw = .ok es)
    (hp : AllPlain es) (s : St) :
    Ev (fun n => buildFragment L (run L n) n ctx (.F raw)) s (.ok (trimSpace (plainText es)), s) := by
  have := Ev.fragment (L := L) (ctx := ctx) (f := .F raw) (s := s) (s1 := s.fresh) h (clause_plain hp _) rfl
  have hd : decorate (Fragment.F raw).pre (Fragment.F raw).suf (plainText es) = trimSpace (plainText es) := by
    show decorate [] [] _ = _
    by_cases h : trimSpace (plainText es) = [] <;> simp [decorate, h]
  rw [hd] at this
  exact this

end Sqlf
