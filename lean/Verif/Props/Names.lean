import Verif.Props.Syntax
import Verif.Props.Reader
import Verif.Proofs.QueryTidy
import Verif.KernelRfl
/-!
# C40: which function names can be called
-/

namespace Sqlf.Props

open Spec

/-- The template calls the function: `#name(…)`, `#name1` or (for `#join`) `#name`. -/
def Calls (L : GoLib) (s name : Str) : Prop :=
  ∃ es, parse L s = .ok es ∧ ((∃ args, .call name args ∈ es) ∨ .func name ∈ es)

/-- **C40** Whatever the template: the names it calls consist of ASCII letters and underscores. -/
theorem C40_called_names (L : GoLib) (s name : Str) (h : Calls L s name) : isName name := by
  obtain ⟨es, hp, hc⟩ := h
  obtain ⟨ps, -, h1, h2⟩ := (C06_reading_stops_at_nul L s).2.2 es hp
  have key : ∀ (ps : List (Str × Expr)) (a : Bool) (e : Expr), Segments L a ps → e ∈ ps.map (·.2) →
      (∃ args, e = .call name args) ∨ e = .func name → isName name := by
    intro ps
    induction ps with
    | nil => intro a e _ he; cases he
    | cons p ps ih =>
      intro a e hs he hn
      rcases List.mem_cons.1 he with rfl | he
      · obtain ⟨src, e⟩ := p
        obtain ⟨hs, -⟩ := hs
        dsimp only at hs hn
        rcases hn with ⟨args, rfl⟩ | rfl
        · cases hs with
          | short h => exact h
          | call h => exact h
        · cases hs with
          | func h => exact h
      · exact ih _ e hs.2 he hn
  rcases hc with ⟨args, hc⟩ | hc
  · rw [← mem_glue (by nofun), h2, mem_glue (by nofun)] at hc
    exact key ps false _ h1 hc (.inl ⟨args, rfl⟩)
  · rw [← mem_glue (by nofun), h2, mem_glue (by nofun)] at hc
    exact key ps false _ h1 hc (.inr rfl)

private theorem nameByte_ascii {b : UInt8} (h : nameByte b = true) : b < 0x80 := by
  simp only [nameByte, Bool.or_eq_true, Bool.and_eq_true, decide_eq_true_eq, UInt8.le_iff_toNat_le] at h
  rw [UInt8.lt_iff_toNat_lt]
  simp at h ⊢
  rcases h with (h | h) | h
  · omega
  · omega
  · subst h; decide

/-- **C40** exactly: an accepted name can be called if, and only if, all of its bytes are ASCII. -/
theorem C40_callable_iff (L : GoLib) (name : Str) (h : goodName L name = true) :
    (∃ s, Calls L s name) ↔ ∀ b ∈ name, b < 0x80 := by
  constructor
  · rintro ⟨s, hs⟩ b hb
    exact nameByte_ascii ((C40_called_names L s name hs).2 b hb)
  · intro ha
    obtain ⟨-, -, es, hp, hg⟩ := C40_ascii_names_callable_partial L name h ha
    exact ⟨_, es, hp, .inr ((mem_glue (by nofun) es).1 (by rw [hg]; simp))⟩

/-- A name that can be called, and one that cannot although it is accepted: `naïf`. -/
example (L : GoLib) : goodName L (lit "my_fn") = true ∧ (∀ b ∈ lit "my_fn", b < 0x80) ∧
    Calls L (lit "SELECT #my_fn(1)") (lit "my_fn") ∧
    (L.isLetterHi 0xEF = true → goodName L [0x6E, 0x61, 0xC3, 0xAF, 0x66] = true ∧ ¬ ∀ b ∈ ([0x6E, 0x61, 0xC3, 0xAF, 0x66] : Str), b < 0x80) :=
  ⟨by kernel_rfl, by decide, ⟨[.plain (lit "SELECT "), .call (lit "my_fn") [.num (.nat 1)]], by kernel_rfl, .inl ⟨[.num (.nat 1)], by simp⟩⟩,
    fun h => ⟨by
      have : runes [0x6E, 0x61, 0xC3, 0xAF, 0x66] = [0x6E, 0x61, 0xEF, 0x66] := by decide
      simp [goodName, this, isLetterRune, h], by decide⟩⟩

end Sqlf.Props
