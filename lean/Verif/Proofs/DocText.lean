import Verif.Spec.Denote
import Verif.Spec.History
import Verif.Proofs.Trim
import Verif.Proofs.Digits
import Verif.Proofs.Store
/-!
# Texts of documents
-/

namespace Sqlf
open Spec

/-- A placeholder: it begins and ends with an ASCII byte that is not white space. -/
structure Mark (p : Str) : Prop where
  ne : p ≠ []
  head : ∀ b, p.head? = some b → Stop b
  last : ∀ b, p.getLast? = some b → Stop b

theorem stop_digit {b : UInt8} (h : isDigitB b = true) : Stop b := by
  simp only [isDigitB, Bool.and_eq_true, decide_eq_true_eq, UInt8.le_iff_toNat_le] at h
  have h1 : (48 : UInt8).toNat = 48 := rfl
  have h2 : (57 : UInt8).toNat = 57 := rfl
  rw [h1, h2] at h
  refine ⟨?_, ?_⟩
  · rw [UInt8.lt_iff_toNat_lt]
    have : (128 : UInt8).toNat = 128 := rfl
    omega
  · generalize b.toNat = x at h
    have hx : x = 48 ∨ x = 49 ∨ x = 50 ∨ x = 51 ∨ x = 52 ∨ x = 53 ∨ x = 54 ∨ x = 55 ∨ x = 56 ∨
        x = 57 := by omega
    rcases hx with h | h | h | h | h | h | h | h | h | h <;> subst h <;> rfl

theorem mark_question : Mark (lit "?") := by
  refine ⟨by decide, ?_, ?_⟩
  · intro b hb
    have : b = 0x3F := by
      have h : (lit "?").head? = some 0x3F := by decide
      rw [h] at hb; cases hb; rfl
    subst this; exact ⟨by decide, by decide⟩
  · intro b hb
    have : b = 0x3F := by
      have h : (lit "?").getLast? = some 0x3F := by decide
      rw [h] at hb; cases hb; rfl
    subst this; exact ⟨by decide, by decide⟩

theorem mark_dollar (n : Nat) : Mark (dollarMark n) := by
  have h0 : dollarMark n = 0x24 :: natDigits n := rfl
  rw [h0]
  refine ⟨by simp, ?_, ?_⟩
  · intro b hb
    simp at hb; subst hb; exact ⟨by decide, by decide⟩
  · intro b hb
    have hm : b ∈ (0x24 : UInt8) :: natDigits n := List.mem_of_getLast? hb
    rcases List.mem_cons.1 hm with rfl | hm
    · exact ⟨by decide, by decide⟩
    · exact stop_digit (List.all_eq_true.1 (natDigits_all n) b hm)

/-- All marks of a document are in range. -/
def InRange (ps : List Str) (d : Doc) : Prop := ∀ k ∈ binds d, k < ps.length

theorem binds_append (d e : Doc) : binds (d ++ e) = binds d ++ binds e := by
  induction d with
  | nil => rfl
  | cons a d ih => cases a <;> simp [binds, ih]

theorem binds_ofStr (s : Str) : binds (Doc.ofStr s) = [] := by
  induction s with
  | nil => rfl
  | cons b s ih => simpa [Doc.ofStr, binds] using ih

theorem inRange_nil (ps : List Str) : InRange ps [] := by simp [InRange, binds]

theorem inRange_ofStr (ps : List Str) (s : Str) : InRange ps (Doc.ofStr s) := by
  simp [InRange, binds_ofStr]

theorem inRange_append {ps : List Str} {d e : Doc} :
    InRange ps (d ++ e) ↔ InRange ps d ∧ InRange ps e := by
  simp only [InRange, binds_append, List.mem_append]
  exact ⟨fun h => ⟨fun k hk => h k (.inl hk), fun k hk => h k (.inr hk)⟩,
    fun h k hk => hk.elim (h.1 k) (h.2 k)⟩

theorem inRange_cons_byte {ps : List Str} {b : UInt8} {d : Doc} :
    InRange ps (.byte b :: d) ↔ InRange ps d := by simp [InRange, binds]

theorem inRange_cons_bind {ps : List Str} {k : Nat} {d : Doc} :
    InRange ps (.bind k :: d) ↔ k < ps.length ∧ InRange ps d := by simp [InRange, binds]

theorem InRange.mono {ps qs : List Str} {d : Doc} (h : InRange ps d) (hp : ps <+: qs) :
    InRange qs d := fun k hk => Nat.lt_of_lt_of_le (h k hk) hp.length_le

theorem renderDoc_append (ps : List Str) (d e : Doc) :
    renderDoc ps (d ++ e) = renderDoc ps d ++ renderDoc ps e := by
  induction d with
  | nil => rfl
  | cons a d ih => cases a <;> simp [renderDoc, ih]

theorem renderDoc_ofStr (ps : List Str) (s : Str) : renderDoc ps (Doc.ofStr s) = s := by
  induction s with
  | nil => rfl
  | cons b s ih => simpa [Doc.ofStr, renderDoc] using ih

theorem renderDoc_mono {ps qs : List Str} {d : Doc} (h : InRange ps d) (hp : ps <+: qs) :
    renderDoc qs d = renderDoc ps d := by
  induction d with
  | nil => rfl
  | cons a d ih =>
    cases a with
    | byte b => simp [renderDoc, ih (inRange_cons_byte.1 h)]
    | bind k =>
      obtain ⟨hk, hd⟩ := inRange_cons_bind.1 h
      obtain ⟨t, rfl⟩ := hp
      simp [renderDoc, ih hd, List.getElem?_append_left hk]

theorem ofStr_append (s t : Str) : Doc.ofStr (s ++ t) = Doc.ofStr s ++ Doc.ofStr t := by
  simp [Doc.ofStr]

theorem split_lead (d : Doc) : d = Doc.ofStr (leadText d) ++ fromMark d := by
  induction d with
  | nil => rfl
  | cons a d ih =>
    cases a with
    | byte b =>
      simp only [leadText, fromMark, Doc.ofStr, List.map_cons, List.cons_append]
      exact congrArg _ ih
    | bind k => rfl

theorem fromMark_cases (d : Doc) : fromMark d = [] ∨ ∃ k e, fromMark d = .bind k :: e := by
  induction d with
  | nil => exact .inl rfl
  | cons a d ih =>
    cases a with
    | byte b => exact ih
    | bind k => exact .inr ⟨k, d, rfl⟩

theorem split_tail (d : Doc) : d = toMark d ++ Doc.ofStr (tailText d) := by
  have h := split_lead d.reverse
  have h2 := congrArg List.reverse h
  rw [List.reverse_reverse, List.reverse_append] at h2
  rw [toMark, tailText]
  refine h2.trans ?_
  simp [Doc.ofStr]

theorem toMark_cases (d : Doc) : toMark d = [] ∨ ∃ k e, toMark d = e ++ [.bind k] := by
  rcases fromMark_cases d.reverse with h | ⟨k, e, h⟩
  · exact .inl (by simp [toMark, h])
  · exact .inr ⟨k, e.reverse, by simp [toMark, h]⟩

/-- All placeholders are marks. -/
def Marks (ps : List Str) : Prop := ∀ p ∈ ps, Mark p

theorem Marks.get {ps : List Str} (h : Marks ps) {k : Nat} (hk : k < ps.length) :
    Mark (ps.getD k []) := by
  rw [List.getD_eq_getElem?_getD, List.getElem?_eq_getElem hk]
  exact h _ (List.getElem_mem hk)

theorem renderDoc_fromMark_stop {ps : List Str} (hm : Marks ps) {d : Doc} (hd : InRange ps d) :
    ∀ b, (renderDoc ps (fromMark d)).head? = some b → Stop b := by
  have hr : InRange ps (fromMark d) := by
    have h := hd
    rw [split_lead d, inRange_append] at h
    exact h.2
  rcases fromMark_cases d with h | ⟨k, e, h⟩
  · rw [h]; simp [renderDoc]
  · rw [h] at hr ⊢
    have hk := hm.get (inRange_cons_bind.1 hr).1
    intro b hb
    rw [renderDoc] at hb
    generalize hp : ps.getD k [] = p at hk hb
    obtain ⟨c, t, rfl⟩ := List.exists_cons_of_ne_nil hk.ne
    simp at hb
    exact hk.head b (by simp [hb])

theorem renderDoc_trimLeft {ps : List Str} (hm : Marks ps) {d : Doc} (hd : InRange ps d) :
    renderDoc ps (trimLeftDoc d) = trimLeft (renderDoc ps d) := by
  have h := renderDoc_fromMark_stop hm hd
  conv => rhs; rw [split_lead d, renderDoc_append, renderDoc_ofStr]
  rw [trimLeft_append _ _ h, trimLeftDoc, renderDoc_append, renderDoc_ofStr]

theorem renderDoc_toMark_stop {ps : List Str} (hm : Marks ps) {d : Doc} (hd : InRange ps d) :
    ∀ b, (renderDoc ps (toMark d)).getLast? = some b → Stop b := by
  have hr : InRange ps (toMark d) := by
    have h := hd
    rw [split_tail d, inRange_append] at h
    exact h.1
  rcases toMark_cases d with h | ⟨k, e, h⟩
  · rw [h]; simp [renderDoc]
  · rw [h] at hr ⊢
    have hk := hm.get (inRange_cons_bind.1 (inRange_append.1 hr).2).1
    intro b hb
    rw [renderDoc_append, renderDoc, renderDoc, List.append_nil, List.getLast?_append] at hb
    generalize ps.getD k [] = p at hk hb
    cases hl : p.getLast? with
    | none => exact absurd (List.getLast?_eq_none_iff.1 hl) hk.ne
    | some c => rw [hl] at hb; simp at hb; exact hk.last b (by rw [hl, hb])

theorem renderDoc_trimRight {ps : List Str} (hm : Marks ps) {d : Doc} (hd : InRange ps d) :
    renderDoc ps (trimRightDoc d) = trimRight (renderDoc ps d) := by
  have h := renderDoc_toMark_stop hm hd
  conv => rhs; rw [split_tail d, renderDoc_append, renderDoc_ofStr]
  rw [trimRight_append _ _ h, trimRightDoc, renderDoc_append, renderDoc_ofStr]

theorem binds_trimLeftDoc (d : Doc) : binds (trimLeftDoc d) = binds d := by
  conv => rhs; rw [split_lead d]
  simp [trimLeftDoc, binds_append, binds_ofStr]

theorem binds_trimRightDoc (d : Doc) : binds (trimRightDoc d) = binds d := by
  conv => rhs; rw [split_tail d]
  simp [trimRightDoc, binds_append, binds_ofStr]

theorem binds_trimDoc (d : Doc) : binds (trimDoc d) = binds d := by
  rw [trimDoc, binds_trimRightDoc, binds_trimLeftDoc]

theorem renderDoc_trim {ps : List Str} (hm : Marks ps) {d : Doc} (hd : InRange ps d) :
    renderDoc ps (trimDoc d) = trimSpace (renderDoc ps d) := by
  have h : InRange ps (trimLeftDoc d) := by
    intro k hk; rw [binds_trimLeftDoc] at hk; exact hd k hk
  rw [trimDoc, renderDoc_trimRight hm h, renderDoc_trimLeft hm hd, trimSpace]

theorem renderDoc_eq_nil {ps : List Str} (hm : Marks ps) {d : Doc} (hd : InRange ps d) :
    renderDoc ps d = [] ↔ d = [] := by
  cases d with
  | nil => simp [renderDoc]
  | cons a d =>
    cases a with
    | byte b => simp [renderDoc]
    | bind k =>
      have := (hm.get (inRange_cons_bind.1 hd).1).ne
      simp [renderDoc] at this ⊢
      exact fun h => absurd h this

theorem binds_decorateDoc (pre suf : Str) (d : Doc) : binds (decorateDoc pre suf d) = binds d := by
  unfold decorateDoc
  by_cases h : trimDoc d = []
  · rw [if_pos h, ← binds_trimDoc d, h]
  · rw [if_neg h]
    have h1 : ∀ (c : Prop) [Decidable c] (s t : Str),
        binds (if c then [] else Doc.ofStr s ++ Doc.ofStr t) = [] := by
      intro c _ s t
      split
      · rfl
      · simp [binds_append, binds_ofStr]
    simp [binds_append, h1, binds_trimDoc]

theorem binds_joinDoc (sep : Str) (acc d : Doc) : binds (joinDoc sep acc d) = binds acc ++ binds d := by
  unfold joinDoc
  split
  · rename_i h; simp [h, binds]
  · split
    · rename_i h; simp [h, binds]
    · simp [binds_append, binds_ofStr]

theorem commitAll_snoc (s : Store) (l : List Val) (v : Val) :
    commitAll s (l ++ [v]) =
      (commitAll s l).bind fun r => (r.2.commit v).map fun q => (r.1 ++ [q.1], q.2) := by
  induction l generalizing s with
  | nil =>
    simp only [List.nil_append, commitAll, Option.bind_some]
    cases s.commit v <;> rfl
  | cons w l ih =>
    simp only [List.cons_append, commitAll]
    cases s.commit w with
    | none => rfl
    | some q =>
      simp only [ih]
      cases h : commitAll q.2 l with
      | none => rfl
      | some r =>
        simp only [Option.bind_some]
        cases r.2.commit v <;> rfl

theorem commit_mark {s s' : Store} {v : Val} {p : Str} (h : s.commit v = some (p, s')) : Mark p := by
  unfold Store.commit at h
  split at h
  · split at h
    · simp at h
    · split at h
      · simp at h; rw [← h.1]; exact mark_dollar _
      · simp at h; rw [← h.1]; exact mark_dollar _
  · simp at h; rw [← h.1]; exact mark_question

theorem commitAll_marks {s s' : Store} {l : List Val} {ps : List Str}
    (h : commitAll s l = some (ps, s')) : Marks ps := by
  induction l generalizing s ps with
  | nil => simp [commitAll] at h; intro p hp; simp [h.1] at hp
  | cons v l ih =>
    simp only [commitAll] at h
    cases hc : s.commit v with
    | none => simp [hc] at h
    | some q =>
      obtain ⟨p, s1⟩ := q
      simp only [hc] at h
      cases hr : commitAll s1 l with
      | none => simp [hr] at h
      | some r =>
        obtain ⟨qs, s2⟩ := r
        simp [hr] at h
        obtain ⟨rfl, rfl⟩ := h
        intro x hx
        rcases List.mem_cons.1 hx with rfl | hx
        · exact commit_mark hc
        · exact ih hr x hx

/-- The values that cannot be committed. -/
def badFor (s : Store) (v : Val) : Bool := s.isDollar && !v.hashable

theorem commit_none_iff (s : Store) (v : Val) : s.commit v = none ↔ badFor s v = true := by
  unfold Store.commit badFor
  cases hd : s.isDollar
  · simp
  · cases hh : v.hashable
    · simp
    · simp only [if_true, Bool.not_true, Bool.false_eq_true, if_false, Bool.and_false]
      split <;> simp

end Sqlf
