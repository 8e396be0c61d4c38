import Verif.Spec.Interpolate
import Verif.Proofs.History
import Verif.Proofs.Interpolate
import Verif.Proofs.DocText
import Verif.Proofs.Reader
import Verif.Proofs.Meaning
/-!
# Interpolation of the same document in the two styles
-/

namespace Sqlf

open Spec

/-- The pieces of a query as items of a template; `item` tells what a placeholder is. -/
def itemsOf (item : Nat → Item) : List Piece → List Item
  | [] => []
  | .text s :: ps => .text s :: itemsOf item ps
  | .quoted q s :: ps => .quoted q s :: itemsOf item ps
  | .esc b :: ps => .esc b :: itemsOf item ps
  | .mark k :: ps => item k :: itemsOf item ps

theorem renderDoc_text (ps : List Str) (s : Str) (d : Doc) : renderDoc ps (Doc.ofStr s ++ d) = s ++ renderDoc ps d := by
  induction s with
  | nil => rfl
  | cons b s ih => simp only [Doc.ofStr, List.map_cons, List.cons_append, renderDoc]; rw [← Doc.ofStr, ih]

theorem binds_text (s : Str) (d : Doc) : binds (Doc.ofStr s ++ d) = binds d := by
  induction s with
  | nil => rfl
  | cons b s ih => simp only [Doc.ofStr, List.map_cons, List.cons_append, binds]; rw [← Doc.ofStr, ih]

theorem render_itemsOf (item : Nat → Item) (phs : List Str) (ps : List Piece)
    (h : ∀ k ∈ binds (docOf ps), renderItem (item k) = phs.getD k []) :
    render (itemsOf item ps) = renderDoc phs (docOf ps) := by
  induction ps with
  | nil => rfl
  | cons p ps ih =>
    cases p with
    | text s => rw [docOf, binds_text] at h; rw [itemsOf, render_cons, docOf, renderDoc_text, ih h]; rfl
    | quoted q s => rw [docOf, binds_text] at h; rw [itemsOf, render_cons, docOf, renderDoc_text, ih h]; rfl
    | esc b => rw [docOf, binds_text] at h; rw [itemsOf, render_cons, docOf, renderDoc_text, ih h]; rfl
    | mark k =>
      simp only [docOf, binds, List.mem_cons, forall_eq_or_imp] at h
      rw [itemsOf, render_cons, docOf, renderDoc, ih h.2, h.1]

/-- An item that can stand for a placeholder. -/
structure IsMark (i : Item) : Prop where
  wf : i.WF
  ne : i ≠ .text []
  starts : ∀ b, (renderItem i).head? = some b → b = 0x24 ∨ b = 0x3F
  nonempty : renderItem i ≠ []
  follows : ∀ t, (∀ b, t.head? = some b → isDigitB b = false ∧ b ≠ 0x3F) → Follows i t
  followsItem : ∀ is, FollowsItem i is
  after : ∀ is s, FollowsItem (.text s) (i :: is)

theorem isMark_qmark : IsMark .qmark := by
  refine ⟨trivial, by simp, ?_, by decide, ?_, fun _ => trivial, fun _ _ => trivial⟩
  · intro b hb; simp [renderItem, lit] at hb; exact .inr hb.symm
  · intro t ht b hb
    refine ⟨(ht b hb).2, fun h => ?_⟩
    have := (ht b hb).1
    rw [digit19_digit (by simpa [digit19] using h)] at this
    simp at this

theorem isMark_dollarN {n : Nat} (h1 : 1 ≤ n) (h2 : n < 2 ^ 63) : IsMark (.dollarN n) := by
  refine ⟨⟨h1, h2⟩, by simp, ?_, by simp [renderItem, lit], ?_, fun _ => trivial, fun _ _ => trivial⟩
  · intro b hb; simp [renderItem, lit] at hb; exact .inl hb.symm
  · intro t ht b hb; exact (ht b hb).1

theorem head_itemsOf {item : Nat → Item} {ps : List Piece} (hi : ∀ k ∈ binds (docOf ps), IsMark (item k)) (h : Pieces ps)
    (b : UInt8) (hb : (render (itemsOf item ps)).head? = some b) :
    (∃ s r, ps = .text (b :: s) :: r ∧ plainByte b = true) ∨
    (∃ s r, ps = .quoted b s :: r ∧ (b = 0x27 ∨ b = 0x22 ∨ b = 0x60)) ∨
    (∃ r, ps = .esc b :: r ∧ (b = 0x24 ∨ b = 0x3F)) ∨ ∃ k r, ps = .mark k :: r ∧ (b = 0x24 ∨ b = 0x3F) := by
  cases ps with
  | nil => simp [itemsOf, render] at hb
  | cons p ps =>
    obtain ⟨h1, h2, h3⟩ := h
    cases p with
    | text s =>
      cases s with
      | nil => exact absurd rfl h1.1
      | cons c s =>
        rw [itemsOf, render_cons] at hb
        simp [renderItem] at hb; subst hb
        exact .inl ⟨s, ps, rfl, h1.2 c (by simp)⟩
    | quoted q s =>
      rw [itemsOf, render_cons] at hb
      simp [renderItem] at hb; subst hb
      refine .inr (.inl ⟨s, ps, rfl, ?_⟩)
      rcases h1 with h | h
      · exact .inl h.1
      · exact .inr h.1
    | esc c =>
      rw [itemsOf, render_cons] at hb
      simp [renderItem] at hb; subst hb
      exact .inr (.inr (.inl ⟨ps, rfl, h1⟩))
    | mark k =>
      rw [itemsOf, render_cons] at hb
      have hk := hi k (by simp [docOf, binds])
      refine .inr (.inr (.inr ⟨k, ps, rfl, hk.starts b ?_⟩))
      have := hk.nonempty
      cases hr : renderItem (item k) with
      | nil => exact absurd hr this
      | cons c t => rw [hr] at hb; simpa using hb

theorem wf_itemsOf {item : Nat → Item} {ps : List Piece} (hi : ∀ k ∈ binds (docOf ps), IsMark (item k)) (h : Pieces ps) :
    WF (itemsOf item ps) := by
  induction ps with
  | nil => trivial
  | cons p ps ih =>
    obtain ⟨h1, h2, h3⟩ := h
    have hi' : ∀ k ∈ binds (docOf ps), IsMark (item k) := by
      intro k hk
      refine hi k ?_
      cases p <;> simp only [docOf, binds_text, binds, List.mem_cons] <;> first | exact hk | exact .inr hk
    have ih := ih hi' h3
    have hh := head_itemsOf hi' h3
    cases p with
    | text s =>
      refine ⟨h1.2, by simpa using h1.1, trivial, ?_, ih⟩
      cases ps with
      | nil => trivial
      | cons p' ps' =>
        cases p' with
        | text _ => exact h2.elim
        | mark k => exact (hi' k (by simp [docOf, binds])).after _ _
        | _ => trivial
    | quoted q s =>
      refine ⟨h1, by simp, ?_, trivial, ih⟩
      rintro rfl hb
      rcases hh _ hb with ⟨s', r, -, hp⟩ | ⟨s', r, rfl, -⟩ | ⟨r, -, hp⟩ | ⟨k, r, -, hp⟩
      · simp [plainByte] at hp
      · exact h2
      · simp at hp
      · simp at hp
    | esc b => exact ⟨h1, by simp, trivial, trivial, ih⟩
    | mark k =>
      have hk := hi k (by simp [docOf, binds])
      refine ⟨hk.wf, hk.ne, hk.follows _ ?_, hk.followsItem _, ih⟩
      intro b hb
      rcases hh _ hb with ⟨s', r, rfl, hp⟩ | ⟨s', r, rfl, hp⟩ | ⟨r, rfl, hp⟩ | ⟨k, r, rfl, hp⟩
      · refine ⟨h2, ?_⟩
        rintro rfl
        simp [plainByte] at hp
      · rcases hp with rfl | rfl | rfl <;> decide
      · rcases hp with rfl | rfl
        · decide
        · exact h2.elim
      · exact h2.elim

theorem meaning_question (ps : List Piece) (k : Nat) (q : Bool) :
    ∃ es, meaning k q (itemsOf (fun _ => .qmark) ps) = some es := by
  induction ps generalizing k q with
  | nil => exact ⟨_, rfl⟩
  | cons p ps ih =>
    cases p with
    | mark j => obtain ⟨es, h⟩ := ih (k + 1) true; exact ⟨_, by simp only [itemsOf, meaning, h]; rfl⟩
    | _ => obtain ⟨es, h⟩ := ih k q; exact ⟨_, by simp only [itemsOf, meaning, h]; rfl⟩

theorem meaning_dollar (num : Nat → Nat) (ps : List Piece) (k : Nat) :
    ∃ es, meaning k false (itemsOf (fun j => .dollarN (num j)) ps) = some es := by
  induction ps generalizing k with
  | nil => exact ⟨_, rfl⟩
  | cons p ps ih =>
    cases p with
    | mark j => obtain ⟨es, h⟩ := ih (k + 1); exact ⟨_, by simp only [itemsOf, meaning, h]; rfl⟩
    | _ => obtain ⟨es, h⟩ := ih k; exact ⟨_, by simp only [itemsOf, meaning, h]; rfl⟩

/-- The two readings of the same pieces are filled in the same way. -/
theorem fill_same (L : GoLib) (layout : Str) (vs as : List Val) (num : Nat → Nat) (ps : List Piece) (k j m : Nat) (q : Bool)
    (hb : binds (docOf ps) = List.range' k m)
    (hn : ∀ i ∈ binds (docOf ps), ∃ v w, vs[i]? = some v ∧ 1 ≤ num i ∧ as[num i - 1]? = some w ∧
      ∀ s, Encodes L layout v s ↔ Encodes L layout w s)
    (es es' : List Expr) (h : meaning k q (itemsOf (fun _ => .qmark) ps) = some es)
    (h' : meaning j false (itemsOf (fun j => .dollarN (num j)) ps) = some es') (s : Str) :
    Filled L layout vs es s ↔ Filled L layout as es' s := by
  induction ps generalizing k j m q es es' s with
  | nil => simp [itemsOf, meaning] at h h'; subst h h'; rfl
  | cons p ps ih =>
    cases p with
    | mark i =>
      simp only [itemsOf, meaning, Option.map_eq_some_iff, Bool.false_eq_true, if_false] at h h'
      obtain ⟨es1, h, rfl⟩ := h
      obtain ⟨es1', h', rfl⟩ := h'
      simp only [docOf, binds] at hb hn
      cases m with
      | zero => simp at hb
      | succ m =>
        rw [List.range'_succ] at hb
        simp only [List.cons.injEq] at hb
        obtain ⟨rfl, hb⟩ := hb
        have := ih (i + 1) (j + 1) m true hb (fun i hi => hn i (by simp [hi])) es1 es1' h h'
        obtain ⟨v, w, h1, h2, h3, h4⟩ := hn i (by simp)
        simp only [Filled]
        have e1 : (((i + 1 : Nat) : Int) - 1).toNat = i := by omega
        have e2 : (((num i : Nat) : Int) - 1).toNat = num i - 1 := by omega
        have e3 : 1 ≤ ((i + 1 : Nat) : Int) := by omega
        have e4 : 1 ≤ ((num i : Nat) : Int) := by omega
        simp only [e1, e2, h1, h3, e3, e4, true_and, Option.some.injEq, this]
        constructor
        · rintro ⟨v', x, r, rfl, hx, hs, hr⟩
          exact ⟨w, x, r, rfl, (h4 x).mp hx, hs, hr⟩
        · rintro ⟨v', x, r, rfl, hx, hs, hr⟩
          exact ⟨v, x, r, rfl, (h4 x).mpr hx, hs, hr⟩
    | _ =>
      simp only [itemsOf, meaning, Option.map_eq_some_iff] at h h'
      obtain ⟨es1, h, rfl⟩ := h
      obtain ⟨es1', h', rfl⟩ := h'
      rw [docOf, binds_text] at hb hn
      simp only [Filled, ih k j m q hb hn es1 es1' h h']

/-- The arguments of a store are values committed to it. -/
theorem commitAll_args_subset {s s' : Store} {vs : List Val} {ps : List Str} (h : commitAll s vs = some (ps, s')) :
    (∀ w ∈ s'.args, w ∈ s.args ∨ w ∈ vs) ∧ s'.args.length ≤ s.args.length + vs.length := by
  induction vs generalizing s ps with
  | nil => simp [commitAll] at h; obtain ⟨_, rfl⟩ := h; exact ⟨fun w h => .inl h, by simp⟩
  | cons v vs ih =>
    simp only [commitAll] at h
    split at h
    · simp at h
    next p s1 h1 =>
      split at h
      · simp at h
      next ps' s2 h2 =>
        simp at h
        obtain ⟨_, rfl⟩ := h
        have h3 : s1.args = s.args ∨ s1.args = s.args ++ [v] := by
          unfold Store.commit at h1
          repeat' split at h1
          all_goals simp at h1
          all_goals obtain ⟨_, rfl⟩ := h1
          all_goals simp
        obtain ⟨h4, h5⟩ := ih h2
        constructor
        · intro w hw
          rcases h4 w hw with h | h
          · rcases h3 with h3 | h3
            · rw [h3] at h; exact .inl h
            · rw [h3] at h
              rcases List.mem_append.mp h with h | h
              · exact .inl h
              · exact .inr (by simp at h; simp [h])
          · exact .inr (by simp [h])
        · rcases h3 with h3 | h3 <;> rw [h3] at h5 <;> simp at h5 ⊢ <;> omega

theorem interpolate_styles (L : GoLib) (layout : Str) (d : Doc) (vs : List Val) (phs : List Str) (st : Store)
    (hc : commitAll (Store.new dollar) vs = some (phs, st)) (hb : binds d = List.range vs.length)
    (hd : NoMarkers d) (hl : vs.length < 2 ^ 63)
    (hu : ∀ v ∈ vs, ∀ w ∈ vs, w.goEq v = true → ∀ s, Encodes L layout v s ↔ Encodes L layout w s) (s : Str) :
    interpolate L layout (renderDoc (List.replicate vs.length (lit "?")) d) vs = .ok s ↔
      interpolate L layout (renderDoc phs d) st.args = .ok s := by
  obtain ⟨ps, hp, rfl⟩ := hd
  have key : ∀ i, ∃ n, i < vs.length → 1 ≤ n ∧ n < 2 ^ 63 ∧ phs[i]? = some (dollarMark n) ∧
      ∃ v w, vs[i]? = some v ∧ st.args[n - 1]? = some w ∧ ∀ s, Encodes L layout v s ↔ Encodes L layout w s := by
    intro i
    by_cases hi : i < vs.length
    · obtain ⟨k, w, h1, h2, h3⟩ := commitAll_resolve (Store.new_inv dollar) rfl hc i vs[i] (by simp [hi])
      have hk := (List.getElem?_eq_some_iff.mp h2).1
      have hlen : st.args.length ≤ vs.length := by
        have := (commitAll_args_subset hc).2
        simpa [Store.new] using this
      refine ⟨k + 1, fun _ => ⟨by omega, by omega, h1, vs[i], w, by simp [hi], by simpa using h2, ?_⟩⟩
      rcases h3 with h3 | h3
      · rw [h3]; exact fun _ => Iff.rfl
      · refine hu _ (by simp) _ ?_ h3
        have hw := List.mem_of_getElem? h2
        rcases (commitAll_args_subset hc).1 w hw with h | h
        · simp [Store.new] at h
        · exact h
    · exact ⟨0, fun h => absurd h hi⟩
  have ⟨num, hnum⟩ := Classical.axiomOfChoice key
  have hr : ∀ k ∈ binds (docOf ps), k < vs.length := by
    intro k hk; rw [hb] at hk; simpa using hk
  have m1 : ∀ k ∈ binds (docOf ps), IsMark ((fun _ => .qmark : Nat → Item) k) := fun k _ => isMark_qmark
  have m2 : ∀ k ∈ binds (docOf ps), IsMark ((fun j => .dollarN (num j) : Nat → Item) k) :=
    fun k hk => isMark_dollarN (hnum k (hr k hk)).1 (hnum k (hr k hk)).2.1
  have r1 := render_itemsOf (fun _ => .qmark) (List.replicate vs.length (lit "?")) ps (by
    intro k hk; simp [renderItem, List.getD, hr k hk])
  have r2 := render_itemsOf (fun j => .dollarN (num j)) phs ps (by
    intro k hk
    have := (hnum k (hr k hk)).2.2.1
    simp [renderItem, List.getD, this, dollarMark])
  obtain ⟨es1, e1⟩ := meaning_question ps 0 false
  obtain ⟨es2, e2⟩ := meaning_dollar num ps 0
  obtain ⟨fs1, f1, g1⟩ := parse_render_some L (wf_itemsOf m1 hp) e1
  obtain ⟨fs2, f2, g2⟩ := parse_render_some L (wf_itemsOf m2 hp) e2
  rw [r1] at f1
  rw [r2] at f2
  unfold interpolate
  rw [f1, f2]
  dsimp only
  rw [filled_iff, ← filled_glue, g1, filled_glue, filled_iff, ← filled_glue (es := fs2), g2, filled_glue]
  refine fill_same L layout vs st.args num ps 0 0 vs.length false ?_ ?_ es1 es2 e1 e2 s
  · rw [hb, List.range_eq_range']
  · intro i hi
    obtain ⟨h1, -, -, v, w, h4, h5, h6⟩ := hnum i (hr i hi)
    exact ⟨v, w, h4, h1, h5, h6⟩

end Sqlf
