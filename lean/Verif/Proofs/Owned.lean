import Verif.Proofs.Jobs
/-!
# Query builders that are shared, and query builders that belong to a goroutine
-/

namespace Sqlf

open Spec

/-- Memory as the sequential run sees it, and as it is: builds may set the prefixes of the shared query builders. -/
structure MixedMem (sh : Nat → Prop) (h h' : List QB) : Prop where
  rel : HeapRel Settles h h'
  steady : ∀ r b, sh r → h[r]? = some b → SteadyQB b
  own : ∀ r, ¬ sh r → h'[r]? = h[r]?

/-- Of the shared query builders only prefixes are set. -/
def MixedSets (sh : Nat → Prop) (f : Nat × Field) (h h' : List QB) : Prop :=
  (sh f.1 → f.2 = .selectsPrefix) ∧ ∀ r, sh r → h'[r]? = h[r]? ∨ ∃ b, h[r]? = some b ∧
    h'[r]? = some { b with selects := b.selects.withPrefix (selectPrefix b) }

section
variable {sh : Nat → Prop}

theorem get_set_self {h : List QB} {r : Nat} {b c : QB} (hb : h[r]? = some b) : (h.set r c)[r]? = some c :=
  List.getElem?_set_self (List.getElem?_eq_some_iff.1 hb).1

/-- The same change of a query builder that is not shared. -/
theorem MixedMem.setOwn {h h' : List QB} (hK : MixedMem sh h h') {r : Nat} (hr : ¬ sh r) {b : QB} (hb : h[r]? = some b) (c : QB) :
    MixedMem sh (h.set r c) (h'.set r c) ∧ ∀ f, MixedSets sh (r, f) h' (h'.set r c) := by
  refine ⟨⟨hK.rel.set (.refl c) r, fun k d hk hd => ?_, fun k hk => ?_⟩, fun f => ⟨fun h => absurd h hr, fun k hk => .inl ?_⟩⟩
  · rw [List.getElem?_set_ne (by rintro rfl; exact hr hk)] at hd
    exact hK.steady k d hk hd
  · by_cases e : r = k
    · subst e
      rw [get_set_self hb, get_set_self ((hK.own r hr).trans hb)]
    · rw [List.getElem?_set_ne e, List.getElem?_set_ne e]; exact hK.own k hk
  · exact List.getElem?_set_ne (by rintro rfl; exact hr hk)

theorem mixed_sameLook : SameLook Settles (MixedMem sh) (MixedSets sh) where
  rel := settles_rel
  settled h := h.settled
  heap h := h.rel
  selects := by
    intro h h' r b b' hK hb hb'
    obtain ⟨c, hc, hq⟩ := hK.rel.some r b hb
    rw [hb'] at hc; cases hc
    have hp : selectPrefix b = selectPrefix b' := by unfold selectPrefix; rw [settles_rel.distinct hq]
    refine ⟨⟨hK.rel.set (settles_rel.selectsQ hq _) r, fun k d hk hd => ?_, fun k hk => ?_⟩, fun _ => rfl, fun k hk => ?_⟩
    · by_cases e : r = k
      · subst e
        rw [get_set_self hb] at hd
        cases hd
        exact hK.steady r b hk hb
      · rw [List.getElem?_set_ne e] at hd; exact hK.steady k d hk hd
    · by_cases e : r = k
      · subst e
        have := hK.own r hk
        rw [hb, hb'] at this
        cases this
        rw [get_set_self hb, get_set_self hb']
      · rw [List.getElem?_set_ne e, List.getElem?_set_ne e]; exact hK.own k hk
    · by_cases e : r = k
      · subst e
        exact .inr ⟨b', hb', by rw [get_set_self hb', hp]⟩
      · exact .inl (List.getElem?_set_ne e)
  touches := by
    intro h h1 h2 r b b1 b2 hK hK2 hb hb1 hb2 ts hts hne
    by_cases hr : sh r
    · exact absurd (hts.trans (orderItems_steady (hK.steady r b hr hb)).1) hne
    · have e1 := hK.own r hr
      have e2 := hK2.own r hr
      rw [hb, hb1] at e1
      rw [hb, hb2] at e2
      cases e1; cases e2
      exact ⟨(hK2.setOwn hr hb _).1, (hK2.setOwn hr hb _).2 _⟩
  errors := by
    intro h h1 h2 r b b1 b2 hK hK2 hb hb1 hb2 es hes hne
    by_cases hr : sh r
    · exact absurd (hes.trans (orderItems_steady (hK.steady r b hr hb)).2) hne
    · have e1 := hK.own r hr
      have e2 := hK2.own r hr
      rw [hb, hb1] at e1
      rw [hb, hb2] at e2
      cases e1; cases e2
      exact ⟨(hK2.setOwn hr hb _).1, (hK2.setOwn hr hb _).2 _⟩

/-! ## a goroutine does its jobs -/

theorem Ends.bind {K : List QB → List QB → Prop} {G : Nat × Field → List QB → List QB → Prop} {t : Th α} {a : α} {h h' : List QB}
    (ht : Ends K G h t a h') {g : α → Th β} {c : β} {hend : List QB} (hg : Ends K G h' (g a) c hend) :
    Ends K G h (t.bind g) c hend := by
  induction t generalizing h with
  | done a' =>
    obtain ⟨rfl, rfl⟩ := ht
    exact hg
  | read r fs k ih => exact fun h' hK => ih _ (ht h' hK)
  | write r f u k ih =>
    obtain ⟨href', ht⟩ := ht
    exact ⟨href', fun h' hK => ⟨(ht h' hK).1, (ht h' hK).2.1, ih _ (ht h' hK).2.2⟩⟩

theorem callThread_ends {heap : List QB} {r : Nat} (hr : ¬ sh r) {c : Call} {b b' : QB} (hb : heap[r]? = some b)
    (e : c.apply b = .ok b') : Ends (MixedMem sh) (MixedSets sh) heap (callThread r c) true (heap.set r b') := by
  intro h hK
  rw [hK.own r hr, hb]
  dsimp only
  rw [e]
  dsimp only
  have hf := apply_field e
  cases hc : callField c with
  | none =>
    rw [hc] at hf
    subst hf
    exact ⟨rfl, heap_set_self hb⟩
  | some f =>
    rw [hc] at hf
    dsimp only at hf ⊢
    refine ⟨heap.set r b', fun h2 hK2 => ?_⟩
    have h3 := (hK2.own r hr).trans hb
    rw [assign_some h3, hf]
    exact ⟨(hK2.setOwn hr hb b').1, (hK2.setOwn hr hb b').2 f, rfl, rfl⟩

theorem callThread_ends_panic {heap : List QB} {r : Nat} (hr : ¬ sh r) {c : Call} {b : QB} {p : Panic} (hb : heap[r]? = some b)
    (e : c.apply b = .panic p) : Ends (MixedMem sh) (MixedSets sh) heap (callThread r c) false heap := by
  intro h hK
  rw [hK.own r hr, hb]
  dsimp only
  rw [e]
  exact ⟨rfl, rfl⟩

theorem jobsThread_ends {L : GoLib} {heap : List QB} {jobs : List Job} {shown : List Shown}
    (h : DoneAlone L heap jobs shown) (hj : ∀ r c, .call r c ∈ jobs → ¬ sh r) :
    ∃ N, ∀ fuel, N ≤ fuel → ∃ hend, Ends (MixedMem sh) (MixedSets sh) heap (jobsThread L fuel jobs) shown hend := by
  induction h with
  | nil heap => exact ⟨0, fun _ _ => ⟨heap, rfl, rfl⟩⟩
  | @build heap heap' b style o log jobs rest h hp hs ih =>
    obtain ⟨N1, h1⟩ := ih fun r c hm => hj r c (.tail _ hm)
    obtain ⟨hne, N2, h2⟩ := h
    refine ⟨max N1 N2, fun fuel hf => ?_⟩
    obtain ⟨hend, he⟩ := h1 fuel (by omega)
    obtain ⟨h3, h4, h5⟩ := h2 fuel (by omega)
    have hb := buildThread_ends (mixed_sameLook (sh := sh)) L fuel b style heap
    rw [h3, h4, h5] at hb
    refine ⟨hend, hb.bind ?_⟩
    cases o with
    | panic p => exact absurd rfl (hp p)
    | ok q => exact he.bind ⟨rfl, rfl⟩
    | err q => exact he.bind ⟨rfl, rfl⟩
    | oof => exact absurd rfl hne
  | @buildPanics heap heap' b style p log jobs h =>
    obtain ⟨-, N2, h2⟩ := h
    refine ⟨N2, fun fuel hf => ?_⟩
    obtain ⟨h3, h4, h5⟩ := h2 fuel hf
    have hb := buildThread_ends (mixed_sameLook (sh := sh)) L fuel b style heap
    rw [h3, h4, h5] at hb
    exact ⟨heap', hb.bind ⟨rfl, rfl⟩⟩
  | @call heap r c b b' jobs rest hr h hs ih =>
    obtain ⟨N1, h1⟩ := ih fun r c hm => hj r c (.tail _ hm)
    refine ⟨N1, fun fuel hf => ?_⟩
    obtain ⟨hend, he⟩ := h1 fuel hf
    exact ⟨hend, (callThread_ends (hj r c (.head _)) hr h).bind (he.bind ⟨rfl, rfl⟩)⟩
  | @callPanics heap r c b p jobs hr h =>
    exact ⟨0, fun fuel _ => ⟨heap, (callThread_ends_panic (hj r c (.head _)) hr h).bind ⟨rfl, rfl⟩⟩⟩

/-! ## schedules -/

/-- Memory that is as in `h` where `S` holds and as in `h'` elsewhere. -/
theorem splice (S : Nat → Prop) (h h' : List QB) (hl : h.length = h'.length) :
    ∃ hv : List QB, hv.length = h.length ∧ (∀ r, S r → hv[r]? = h[r]?) ∧ ∀ r, ¬ S r → hv[r]? = h'[r]? := by
  induction h generalizing S h' with
  | nil =>
    cases h' with
    | nil => exact ⟨[], rfl, fun _ _ => rfl, fun _ _ => rfl⟩
    | cons b h' => cases hl
  | cons b h ih =>
    cases h' with
    | nil => cases hl
    | cons b' h' =>
      obtain ⟨hv, h1, h2, h3⟩ := ih (fun r => S (r + 1)) h' (by simpa using hl)
      by_cases e : S 0
      · refine ⟨b :: hv, by simp [h1], fun r hr => ?_, fun r hr => ?_⟩
        · cases r with
          | zero => rfl
          | succ r => simpa using h2 r hr
        · cases r with
          | zero => exact absurd e hr
          | succ r => simpa using h3 r hr
      · refine ⟨b' :: hv, by simp [h1], fun r hr => ?_, fun r hr => ?_⟩
        · cases r with
          | zero => exact absurd hr e
          | succ r => simpa using h2 r hr
        · cases r with
          | zero => rfl
          | succ r => simpa using h3 r hr

/-- The shared query builders. -/
def isShared (owner : Nat → Option Nat) (r : Nat) : Prop := owner r = none

theorem isShared_usable {owner : Nat → Option Nat} (i : Nat) : ∀ r, isShared owner r → Usable owner i r := fun _ h => .inl h

/-- Memory as goroutine `i` running alone would have it, and as it is. -/
structure Seen (owner : Nat → Option Nat) (i : Nat) (href h : List QB) : Prop where
  len : h.length = href.length
  rel : ∀ r b, owner r = none → href[r]? = some b → ∃ b', h[r]? = some b' ∧ Settles b b'
  steady : ∀ r b, owner r = none → href[r]? = some b → SteadyQB b
  own : ∀ r, owner r = some i → h[r]? = href[r]?

/-- Memory with what goroutine `i` does not use as it would be if it ran alone. -/
theorem Seen.virtual {owner : Nat → Option Nat} {i : Nat} {href h : List QB} (hs : Seen owner i href h) :
    ∃ hv, MixedMem (isShared owner) href hv ∧ (∀ r, Usable owner i r → hv[r]? = h[r]?) := by
  obtain ⟨hv, h1, h2, h3⟩ := splice (Usable owner i) h href hs.len
  refine ⟨hv, ⟨⟨fun r hr => ?_, fun r b hr => ?_⟩, hs.steady, fun r hr => ?_⟩, h2⟩
  · have : href.length ≤ r := List.getElem?_eq_none_iff.1 hr
    exact List.getElem?_eq_none (by rw [h1, hs.len]; exact this)
  · cases ho : owner r with
    | none =>
      obtain ⟨b', h4, h5⟩ := hs.rel r b ho hr
      exact ⟨b', (h2 r (.inl ho)).trans h4, h5⟩
    | some j =>
      by_cases e : j = i
      · subst e
        exact ⟨b, by rw [h2 r (.inr ho), hs.own r ho, hr], .refl b⟩
      · refine ⟨b, ?_, .refl b⟩
        rw [h3 r ?_, hr]
        rintro (h | h)
        · rw [ho] at h; cases h
        · rw [ho] at h; cases h; exact e rfl
  · cases ho : owner r with
    | none => exact absurd ho hr
    | some j =>
      by_cases e : j = i
      · subst e
        rw [h2 r (.inr ho), hs.own r ho]
      · refine h3 r ?_
        rintro (h | h)
        · rw [ho] at h; cases h
        · rw [ho] at h; cases h; exact e rfl

theorem assign_length (r : Nat) (u : QB → QB) (h : List QB) : (assign r u h).length = h.length := by
  unfold assign; split <;> simp

/-- Back to memory as it is. -/
theorem MixedMem.seen {owner : Nat → Option Nat} {i : Nat} {href hv h : List QB} (hK : MixedMem (isShared owner) href hv)
    (he : ∀ r, Usable owner i r → hv[r]? = h[r]?) (hl : h.length = href.length) : Seen owner i href h :=
  ⟨hl, fun r b ho hr => by
      obtain ⟨b', h1, h2⟩ := hK.rel.some r b hr
      exact ⟨b', (he r (.inl ho)).symm.trans h1, h2⟩,
    hK.steady, fun r ho => by rw [← he r (.inr ho)]; exact hK.own r (by unfold isShared; rw [ho]; simp)⟩

theorem HeapRel.length {Q : QB → QB → Prop} {h h' : List QB} (hh : HeapRel Q h h') : h'.length = h.length := by
  apply Nat.le_antisymm
  · apply Classical.byContradiction
    intro hlt
    have := hh.none h.length (List.getElem?_eq_none (Nat.le_refl _))
    have := List.getElem?_eq_none_iff.1 this
    omega
  · apply Classical.byContradiction
    intro hlt
    obtain ⟨b', h1, -⟩ := hh.some h'.length _ (List.getElem?_eq_getElem (by omega))
    have := (List.getElem?_eq_some_iff.1 h1).1
    omega

/-- What goroutine `i` is to do. -/
def Owner (owner : Nat → Option Nat) (i : Nat) (h : List QB) (t : Th γ) (a : γ) : Prop :=
  ∃ href hend, Seen owner i href h ∧ AccessIn (Usable owner i) t ∧
    Ends (MixedMem (isShared owner)) (MixedSets (isShared owner)) href t a hend

/-- Query builders refer to shared ones, and those of a goroutine also to others of it. -/
def ClosedOwned (owner : Nat → Option Nat) (h : List QB) : Prop :=
  ∀ r b, h[r]? = some b → (owner r = none → QBIn (isShared owner) b) ∧ ∀ i, owner r = some i → QBIn (Usable owner i) b

theorem ClosedOwned.usable {owner : Nat → Option Nat} {h : List QB} (hc : ClosedOwned owner h) (i : Nat) : ClosedIn (Usable owner i) h := by
  intro r b hr hb
  rcases hr with hr | hr
  · exact fun c hm => RefsIn.mono (isShared_usable i) c ((hc r b hb).1 hr c hm)
  · exact (hc r b hb).2 i hr

/-- What a step of goroutine `i` does to memory. -/
structure StepOf (owner : Nat → Option Nat) (i : Nat) (h h' : List QB) : Prop where
  len : h'.length = h.length
  shared : ∀ r, owner r = none → h'[r]? = h[r]? ∨ ∃ b, h[r]? = some b ∧
    h'[r]? = some { b with selects := b.selects.withPrefix (selectPrefix b) }
  others : ∀ r j, owner r = some j → j ≠ i → h'[r]? = h[r]?
  closed : ClosedOwned owner h → ClosedOwned owner h'

theorem StepOf.refl (owner : Nat → Option Nat) (i : Nat) (h : List QB) : StepOf owner i h h :=
  ⟨rfl, fun _ _ => .inl rfl, fun _ _ _ _ => rfl, fun h => h⟩

theorem Owner.step {owner : Nat → Option Nat} {i : Nat} {h : List QB} {t : Th γ} {a : γ} (ht : Owner owner i h t a)
    (hc : ClosedOwned owner h) : Owner owner i (t.step h).2 (t.step h).1 a ∧ StepOf owner i h (t.step h).2 := by
  obtain ⟨href, hend, hs, hw, he⟩ := ht
  obtain ⟨hv, hK, hv1⟩ := hs.virtual
  have hw' := hw.step (hc.usable i)
  cases t with
  | done a' => exact ⟨⟨href, hend, hs, hw, he⟩, .refl _ _ _⟩
  | read r fs k =>
    refine ⟨⟨href, hend, hs, hw'.1, ?_⟩, .refl _ _ _⟩
    have := he hv hK
    rw [hv1 r hw.1] at this
    exact this
  | write r f u k =>
    obtain ⟨href', he⟩ := he
    obtain ⟨h1, h2, h3⟩ := he hv hK
    rw [hv1 r hw.1] at h3
    have hag := assign_agrees (fun r hr => hv1 r hr) r u
    have hlen : (assign r u h).length = href'.length := by
      rw [assign_length, hs.len]
      have := h1.rel.length
      rw [assign_length, hK.rel.length] at this
      exact this
    have hsh : ∀ k, owner k = none → (assign r u h)[k]? = h[k]? ∨ ∃ b, h[k]? = some b ∧
        (assign r u h)[k]? = some { b with selects := b.selects.withPrefix (selectPrefix b) } := by
      intro k hk
      rw [← hag k (.inl hk), ← hv1 k (.inl hk)]
      rcases h2.2 k hk with h | ⟨b, h⟩
      · exact .inl h
      · exact .inr ⟨b, h⟩
    refine ⟨⟨href', hend, h1.seen hag hlen, hw'.1, h3⟩, assign_length r u h, hsh, fun k j hk hj => ?_, fun _ k b hb => ?_⟩
    · refine getElem?_assign_ne ?_ u h
      rintro rfl
      rcases hw.1 with h | h
      · rw [hk] at h; cases h
      · rw [hk] at h; cases h; exact hj rfl
    · refine ⟨fun hk => ?_, fun j hk => ?_⟩
      · rcases hsh k hk with h4 | ⟨d, h4, h5⟩
        · exact (hc k b (h4 ▸ hb)).1 hk
        · have hb' : (assign r u h)[k]? = some b := hb
          rw [h5] at hb'
          cases hb'
          exact qbIn_prefix ((hc k d h4).1 hk) _
      · by_cases e : j = i
        · subst e
          exact hw'.2.1 k b (.inr hk) hb
        · have : (assign r u h)[k]? = h[k]? := by
            refine getElem?_assign_ne ?_ u h
            rintro rfl
            rcases hw.1 with h | h
            · rw [hk] at h; cases h
            · rw [hk] at h; cases h; exact e rfl
          have hb' : (assign r u h)[k]? = some b := hb
          rw [this] at hb'
          exact (hc k b hb').2 j hk

theorem Owner.other {owner : Nat → Option Nat} {i j : Nat} {h h' : List QB} {t : Th γ} {a : γ} (ht : Owner owner i h t a)
    (hij : i ≠ j) (hs : StepOf owner j h h') : Owner owner i h' t a := by
  obtain ⟨href, hend, h1, h2, h3⟩ := ht
  refine ⟨href, hend, ⟨hs.len.trans h1.len, fun r b ho hr => ?_, h1.steady, fun r ho => ?_⟩, h2, h3⟩
  · obtain ⟨b', h4, hq⟩ := h1.rel r b ho hr
    rcases hs.shared r ho with h5 | ⟨d, h5, h6⟩
    · exact ⟨b', h5.trans h4, hq⟩
    · rw [h4] at h5
      cases h5
      refine ⟨_, h6, hq.only.trans ⟨_, rfl⟩, fun hst => ?_⟩
      have h7 := hq.settled hst
      have h8 : selectPrefix b' = selectPrefix b := by unfold selectPrefix; rw [settles_rel.distinct hq]
      show b'.selects.withPrefix (selectPrefix b') = b.selects
      rw [h7, h8, ← hst]
      cases b.selects; rfl
  · rw [hs.others r i ho hij]; exact h1.own r ho

/-- Any jobs, with any fuel. -/
theorem jobsThread_ends_any (L : GoLib) (fuel : Nat) (jobs : List Job) (heap : List QB)
    (hj : ∀ r c, .call r c ∈ jobs → ¬ sh r) :
    ∃ shown hend, Ends (MixedMem sh) (MixedSets sh) heap (jobsThread L fuel jobs) shown hend := by
  induction jobs generalizing heap with
  | nil => exact ⟨[], heap, rfl, rfl⟩
  | cons j jobs ih =>
    have hj' : ∀ r c, .call r c ∈ jobs → ¬ sh r := fun r c hm => hj r c (.tail _ hm)
    cases j with
    | build b style =>
      have hb := buildThread_ends (mixed_sameLook (sh := sh)) L fuel b style heap
      cases e : (buildQueryS L fuel b style heap).1 with
      | panic p => rw [e] at hb; exact ⟨_, _, hb.bind ⟨rfl, rfl⟩⟩
      | ok q =>
        rw [e] at hb
        obtain ⟨shown, hend, h⟩ := ih (buildQueryS L fuel b style heap).2.heap hj'
        exact ⟨_, _, hb.bind (h.bind ⟨rfl, rfl⟩)⟩
      | err q =>
        rw [e] at hb
        obtain ⟨shown, hend, h⟩ := ih (buildQueryS L fuel b style heap).2.heap hj'
        exact ⟨_, _, hb.bind (h.bind ⟨rfl, rfl⟩)⟩
      | oof =>
        rw [e] at hb
        obtain ⟨shown, hend, h⟩ := ih (buildQueryS L fuel b style heap).2.heap hj'
        exact ⟨_, _, hb.bind (h.bind ⟨rfl, rfl⟩)⟩
    | call r c =>
      have hr := hj r c (.head _)
      cases e : heap[r]? with
      | none =>
        refine ⟨[.panicked], heap, ?_⟩
        refine Ends.bind (a := false) (h' := heap) ?_ ⟨rfl, rfl⟩
        intro h hK
        rw [hK.own r hr, e]
        exact ⟨rfl, rfl⟩
      | some b =>
        cases ea : c.apply b with
        | ok b' =>
          obtain ⟨shown, hend, h⟩ := ih (heap.set r b') hj'
          exact ⟨_, _, (callThread_ends hr e ea).bind (h.bind ⟨rfl, rfl⟩)⟩
        | panic p => exact ⟨_, _, (callThread_ends_panic hr e ea).bind ⟨rfl, rfl⟩⟩
        | err q =>
          refine ⟨[.panicked], heap, Ends.bind (a := false) (h' := heap) ?_ ⟨rfl, rfl⟩⟩
          intro h hK
          rw [hK.own r hr, e]
          dsimp only
          rw [ea]
          exact ⟨rfl, rfl⟩
        | oof =>
          refine ⟨[.panicked], heap, Ends.bind (a := false) (h' := heap) ?_ ⟨rfl, rfl⟩⟩
          intro h hK
          rw [hK.own r hr, e]
          dsimp only
          rw [ea]
          exact ⟨rfl, rfl⟩

/-- Every goroutine ends with the result given for it. -/
structure Sys.Owning (s : Sys γ) (owner : Nat → Option Nat) (goal : Nat → γ) : Prop where
  threads : ∀ i t, s.threads[i]? = some t → Owner owner i s.heap t (goal i)
  closed : ClosedOwned owner s.heap

theorem Sys.Owning.step {s : Sys γ} {owner : Nat → Option Nat} {goal : Nat → γ} (h : s.Owning owner goal) (j : Nat) :
    (s.step j).Owning owner goal := by
  unfold Sys.step
  cases hj : s.threads[j]? with
  | none => exact h
  | some t =>
    obtain ⟨h1, h2⟩ := (h.threads j t hj).step h.closed
    refine ⟨fun i u hu => ?_, h2.closed h.closed⟩
    dsimp only at hu ⊢
    by_cases e : j = i
    · subst e
      rw [List.getElem?_set_self (List.getElem?_eq_some_iff.1 hj).1] at hu
      cases hu
      exact h1
    · rw [List.getElem?_set_ne e] at hu
      exact (h.threads i u hu).other (Ne.symm e) h2

theorem Sys.Owning.run {s : Sys γ} {owner : Nat → Option Nat} {goal : Nat → γ} (h : s.Owning owner goal) (js : List Nat) :
    (s.run js).Owning owner goal := by
  induction js generalizing s with
  | nil => exact h
  | cons j js ih => exact ih (h.step j)

theorem Sys.Owning.result {s : Sys γ} {owner : Nat → Option Nat} {goal : Nat → γ} (h : s.Owning owner goal) {i : Nat} {r : γ}
    (hr : s.result i = some r) : r = goal i := by
  unfold Sys.result at hr
  split at hr
  · rename_i a' hi
    cases hr
    obtain ⟨_, _, _, _, he⟩ := h.threads i _ hi
    exact he.1
  · cases hr

/-- Races are on the prefixes of shared query builders. -/
theorem Sys.Owning.race {s : Sys γ} {owner : Nat → Option Nat} {goal : Nat → γ} (h : s.Owning owner goal) {i j : Nat} {f : Field}
    (hr : Races s i j f) : f = .selectsPrefix := by
  have key : ∀ (i : Nat) (t : Th γ) (r : Nat) (fs : List Field), s.threads[i]? = some t → nextAccess t = some (r, fs, true) →
      owner r = none → fs = [.selectsPrefix] := by
    intro i t r fs ht hn ho
    obtain ⟨href, hend, hK, -, he⟩ := h.threads i t ht
    cases t with
    | done a => cases hn
    | read r fs k => cases hn
    | write r f u k =>
      cases hn
      obtain ⟨href', he⟩ := he
      obtain ⟨hv, hm, -⟩ := hK.virtual
      rw [show f = .selectsPrefix from (he hv hm).2.1.1 ho]
  have acc : ∀ (i : Nat) (t : Th γ) (r : Nat) (fs : List Field) (w : Bool), s.threads[i]? = some t →
      nextAccess t = some (r, fs, w) → Usable owner i r := by
    intro i t r fs w ht hn
    obtain ⟨-, -, -, hw, -⟩ := h.threads i t ht
    exact nextAccess_within hw hn
  obtain ⟨t, u, r, fs, gs, w, v, hne, ht, hu, h1, h2, hf, hg, hw⟩ := hr
  have ho : owner r = none := by
    rcases acc i t r fs w ht h1 with ho | ho
    · exact ho
    · rcases acc j u r gs v hu h2 with ho' | ho'
      · exact ho'
      · rw [ho] at ho'; cases ho'; exact absurd rfl hne
  rcases hw with rfl | rfl
  · rw [key i t r fs ht h1 ho] at hf; exact List.mem_singleton.1 hf
  · rw [key j u r gs hu h2 ho] at hg; exact List.mem_singleton.1 hg

/-- No race without shared query builders. -/
theorem Sys.Owning.noRace {s : Sys γ} {owner : Nat → Option Nat} {goal : Nat → γ} (h : s.Owning owner goal)
    (ho : ∀ r, owner r ≠ none) (i j : Nat) (f : Field) : ¬ Races s i j f := by
  have acc : ∀ (i : Nat) (t : Th γ) (r : Nat) (fs : List Field) (w : Bool), s.threads[i]? = some t →
      nextAccess t = some (r, fs, w) → owner r = some i := by
    intro i t r fs w ht hn
    obtain ⟨-, -, -, hw, -⟩ := h.threads i t ht
    exact (nextAccess_within hw hn).resolve_left (ho r)
  rintro ⟨t, u, r, fs, gs, w, v, hne, ht, hu, h1, h2, -⟩
  have := (acc i t r fs w ht h1).symm.trans (acc j u r gs v hu h2)
  cases this
  exact hne rfl

theorem working_get {L : GoLib} {fuel : Nat} {work : List (List Job)} {heap : List QB} {i : Nat} :
    (working L fuel work heap).threads[i]? = work[i]?.map (jobsThread L fuel) := by
  unfold working
  exact List.getElem?_map ..

theorem Spec.Owned.seen {L : GoLib} {owner : Nat → Option Nat} {work : List (List Job)} {heap : List QB}
    (h : Owned L owner work heap) (i : Nat) : Seen owner i heap heap := by
  refine ⟨rfl, fun r b _ hb => ⟨b, hb, .refl b⟩, fun r b ho hb => ?_, fun _ _ => rfl⟩
  obtain ⟨cs, h1, h2, h3⟩ := h.repeatable r b ho hb
  have hf := h1.fields
  unfold SteadyQB
  rw [hf.orders, hf.distinct]
  exact ⟨h2, h3⟩

theorem Spec.Owned.jobsIn {L : GoLib} {owner : Nat → Option Nat} {work : List (List Job)} {heap : List QB}
    (h : Owned L owner work heap) {i : Nat} {jobs : List Job} (hi : work[i]? = some jobs) (fuel : Nat) :
    AccessIn (Usable owner i) (jobsThread L fuel jobs) := by
  refine jobsThread_in L fuel fun j hj => ?_
  cases j with
  | build b style => exact h.builds i jobs b style hi hj
  | call r c => exact ⟨.inr (h.calls i jobs r c hi hj).1, (h.calls i jobs r c hi hj).2⟩

theorem Spec.Owned.callsOwn {L : GoLib} {owner : Nat → Option Nat} {work : List (List Job)} {heap : List QB}
    (h : Owned L owner work heap) {i : Nat} {jobs : List Job} (hi : work[i]? = some jobs) :
    ∀ r c, .call r c ∈ jobs → ¬ isShared owner r := by
  intro r c hm ho
  have := (h.calls i jobs r c hi hm).1
  unfold isShared at ho
  rw [this] at ho
  cases ho

/-- The goroutines end with what their jobs come to alone. -/
theorem Spec.Owned.owning {L : GoLib} {owner : Nat → Option Nat} {work : List (List Job)} {heap : List QB}
    (h : Owned L owner work heap) (fuel : Nat) {i : Nat} {jobs : List Job} (hi : work[i]? = some jobs) {shown : List Shown}
    {hend : List QB} (he : Ends (MixedMem (isShared owner)) (MixedSets (isShared owner)) heap (jobsThread L fuel jobs) shown hend) :
    ∃ goal, (working L fuel work heap).Owning owner goal ∧ goal i = shown := by
  have hex : ∀ j, ∃ a, ∀ jobs, work[j]? = some jobs → (j = i → a = shown) ∧ ∃ hend,
      Ends (MixedMem (isShared owner)) (MixedSets (isShared owner)) heap (jobsThread L fuel jobs) a hend := by
    intro j
    cases hj : work[j]? with
    | none => exact ⟨[], fun _ h => by cases h⟩
    | some js =>
      by_cases e : j = i
      · subst e
        rw [hi] at hj
        cases hj
        exact ⟨shown, fun _ h => by cases h; exact ⟨fun _ => rfl, hend, he⟩⟩
      · obtain ⟨a, hd, ha⟩ := jobsThread_ends_any L fuel js heap (h.callsOwn hj)
        exact ⟨a, fun _ h => by cases h; exact ⟨fun h => absurd h e, hd, ha⟩⟩
  refine ⟨fun j => (hex j).choose, ⟨fun j t ht => ?_, fun r b hb => ?_⟩, ((hex i).choose_spec jobs hi).1 rfl⟩
  · rw [working_get] at ht
    obtain ⟨js, e, rfl⟩ := Option.map_eq_some_iff.1 ht
    obtain ⟨-, hd, hE⟩ := (hex j).choose_spec js e
    exact ⟨heap, hd, h.seen j, h.jobsIn e fuel, hE⟩
  · exact ⟨fun ho => h.shared r b ho hb, fun k ho => h.own r b k ho hb⟩

theorem Spec.Owned.owning_any {L : GoLib} {owner : Nat → Option Nat} {work : List (List Job)} {heap : List QB}
    (h : Owned L owner work heap) (fuel : Nat) : ∃ goal, (working L fuel work heap).Owning owner goal := by
  cases work with
  | nil => exact ⟨fun _ => [], fun i t ht => (by cases ht), fun r b hb => ⟨fun ho => h.shared r b ho hb, fun k ho => h.own r b k ho hb⟩⟩
  | cons jobs work =>
    obtain ⟨a, hd, ha⟩ := jobsThread_ends_any L fuel jobs heap (h.callsOwn (i := 0) rfl)
    obtain ⟨goal, hg, -⟩ := h.owning fuel (i := 0) rfl ha
    exact ⟨goal, hg⟩

theorem working_results {L : GoLib} {owner : Nat → Option Nat} {work : List (List Job)} {heap : List QB}
    (ho : Owned L owner work heap) {i : Nat} {jobs : List Job} (hi : work[i]? = some jobs) {shown : List Shown}
    (hd : DoneAlone L heap jobs shown) :
    ∃ N, ∀ fuel, N ≤ fuel →
      (∀ (schedule : List Nat) r, ((working L fuel work heap).run schedule).result i = some r → r = shown) ∧
      ∀ σ : Nat → Nat, Fair σ i → ∃ n, ((working L fuel work heap).run (firstSteps σ n)).result i = some shown := by
  obtain ⟨N, hN⟩ := jobsThread_ends hd (ho.callsOwn hi)
  refine ⟨N, fun fuel hf => ?_⟩
  obtain ⟨hend, he⟩ := hN fuel hf
  obtain ⟨goal, hg, hgi⟩ := ho.owning fuel hi he
  have key : ∀ (schedule : List Nat) r, ((working L fuel work heap).run schedule).result i = some r → r = shown := by
    intro schedule r h
    rw [← hgi]
    exact (hg.run schedule).result h
  refine ⟨key, fun σ hσ => ?_⟩
  have ht : (working L fuel work heap).threads[i]? = some (jobsThread L fuel jobs) := by
    rw [working_get, hi]; rfl
  obtain ⟨n, a, h⟩ := Sys.finishes _ _ i σ ht hσ
  exact ⟨n, by rw [← key _ _ h]; exact h⟩

/-! ## for examples -/

/-- The jobs of a goroutine, computed; `none` if the fuel does not suffice. -/
def jobsAlone (L : GoLib) (n : Nat) : List Job → List QB → Option (List Shown)
  | [], _ => some []
  | .build b style :: jobs, heap =>
    match (buildQueryS L n b style heap).1 with
    | .panic p => some [.built (.panic p) (buildQueryS L n b style heap).2.log]
    | .oof => none
    | .ok q => (jobsAlone L n jobs (buildQueryS L n b style heap).2.heap).map
        (.built (.ok q) (buildQueryS L n b style heap).2.log :: ·)
    | .err q => (jobsAlone L n jobs (buildQueryS L n b style heap).2.heap).map
        (.built (.err q) (buildQueryS L n b style heap).2.log :: ·)
  | .call r c :: jobs, heap =>
    match heap[r]? with
    | none => none
    | some b =>
      match c.apply b with
      | .ok b' => (jobsAlone L n jobs (heap.set r b')).map (.called :: ·)
      | .panic _ => some [.panicked]
      | _ => none

theorem returnsLogging_of {L : GoLib} {b : Builder} {style : Style} {heap : List QB} {n : Nat} {o : Out (Str × List Val)}
    (h : (buildQueryS L n b style heap).1 = o) (hne : o ≠ .oof) :
    ReturnsLogging L b style heap o (buildQueryS L n b style heap).2.log (buildQueryS L n b style heap).2.heap := by
  refine ⟨hne, n, fun m hm => ?_⟩
  rw [buildQueryS_eq] at h ⊢
  have h1 : queryOut (run L n rootCtx (.build b) (St.init style heap)) = o := h
  rw [run_le L hm rootCtx (.build b) _ (by rw [Ne, ← queryOut_oof, h1]; exact hne)]
  rw [buildQueryS_eq]
  exact ⟨h, rfl, rfl⟩

theorem doneAlone_of {L : GoLib} (n : Nat) {jobs : List Job} {heap : List QB} {shown : List Shown}
    (h : jobsAlone L n jobs heap = some shown) : DoneAlone L heap jobs shown := by
  induction jobs generalizing heap shown with
  | nil => cases h; exact .nil heap
  | cons j jobs ih =>
    cases j with
    | build b style =>
      unfold jobsAlone at h
      cases e : (buildQueryS L n b style heap).1 with
      | panic p => rw [e] at h; cases h; exact .buildPanics (returnsLogging_of e (by simp))
      | oof => rw [e] at h; cases h
      | ok q =>
        rw [e] at h
        obtain ⟨rest, h1, rfl⟩ := Option.map_eq_some_iff.1 h
        exact .build (returnsLogging_of e (by simp)) (by simp) (ih h1)
      | err q =>
        rw [e] at h
        obtain ⟨rest, h1, rfl⟩ := Option.map_eq_some_iff.1 h
        exact .build (returnsLogging_of e (by simp)) (by simp) (ih h1)
    | call r c =>
      unfold jobsAlone at h
      cases e : heap[r]? with
      | none => rw [e] at h; cases h
      | some b =>
        rw [e] at h
        dsimp only at h
        cases ea : c.apply b with
        | ok b' =>
          rw [ea] at h
          obtain ⟨rest, h1, rfl⟩ := Option.map_eq_some_iff.1 h
          exact .call e ea (ih h1)
        | panic p => rw [ea] at h; cases h; exact .callPanics e ea
        | err q => rw [ea] at h; cases h
        | oof => rw [ea] at h; cases h

end

end Sqlf
