import Verif.SH.Autogen
import Verif.SH.ProtoProps

/-!
C49: generated hook managers are shared and reference counted.
-/
namespace Verif.SH

/-! ## Specification -/

/-- A record without its copy constructor. -/
def noCopy (p : PassInfo) : PassInfo := { p with copyCtor := 0 }

/-- A request, up to the copy constructors (which the comparison leaves out, `copyCtor_not_compared`). -/
def reqKey (p : Proto) (offs idx : Int) : Proto × Int × Int :=
  ({ p with ret := noCopy p.ret, params := p.params.map noCopy }, offs, idx)

abbrev Key := Proto × Int × Int

/-- The references held: one `(request, public function)` for each `MakeHookMan` that succeeded and was not given back yet. -/
abbrev Held := List (Key × Nat)

/-- Giving one reference to `pub` back. -/
def giveBack (pub : Nat) : Held → Held
  | [] => []
  | h :: hs => if h.2 = pub then hs else h :: giveBack pub hs

/-- The number of references to `pub`. -/
def refsTo (pub : Nat) (h : Held) : Nat := h.countP fun x => x.2 == pub

/-- What is known of a prototype read from a request: as many records as its counter says. -/
def Proto.Full (p : Proto) : Prop := p.numParams.toNat = p.params.length

instance (p : Proto) : Decidable p.Full := inferInstanceAs (Decidable (_ = _))

/-- All sequences of calls.  Code is generated at an address where no other generated code is (C25). -/
inductive AutoRun : Autogen → Held → Prop where
  | init : AutoRun Autogen.init []
  | made {s s' : Autogen} {h : Held} {p : Proto} {offs idx : Int} {gen pub : Nat} : AutoRun s h → p.Full → (∀ c ∈ s.ctxs, c.pub ≠ gen) →
      s.make p offs idx gen = some (s', pub) → pub ≠ 0 → AutoRun s' ((reqKey p offs idx, pub) :: h)
  | failed {s s' : Autogen} {h : Held} {p : Proto} {offs idx : Int} {gen : Nat} : AutoRun s h → p.Full → (∀ c ∈ s.ctxs, c.pub ≠ gen) →
      s.make p offs idx gen = some (s', 0) → AutoRun s' h
  | release {s : Autogen} {h : Held} (pub : Nat) : AutoRun s h → AutoRun (s.release pub) (giveBack pub h)

/-! ## Proof -/

/-- The request of a context. -/
def GenCtx.key (c : GenCtx) : Key := reqKey c.proto c.offs c.idx

structure AInv (s : Autogen) (h : Held) : Prop where
  full : ∀ c ∈ s.ctxs, c.proto.Full
  pubs : (s.ctxs.map GenCtx.pub).Nodup
  keys : (s.ctxs.map GenCtx.key).Nodup
  nonzero : ∀ c ∈ s.ctxs, c.pub ≠ 0
  pos : ∀ c ∈ s.ctxs, 0 < c.refs
  refs : ∀ c ∈ s.ctxs, c.refs = refsTo c.pub h
  held : ∀ x ∈ h, ∃ c ∈ s.ctxs, c.key = x.1 ∧ c.pub = x.2

theorem same_iff {c : GenCtx} {p : Proto} {offs idx : Int} (hc : c.proto.Full) (hp : p.Full) :
    ∃ b, c.same p offs idx = some b ∧ (b = true ↔ c.key = reqKey p offs idx) := by
  obtain ⟨r, e, hr⟩ := proto_exactlyEqual_decides c.proto p hc hp
  unfold GenCtx.same GenCtx.key
  rw [e]
  have hkey : (r = true ↔ ({ c.proto with ret := noCopy c.proto.ret, params := c.proto.params.map noCopy } : Proto) =
      { p with ret := noCopy p.ret, params := p.params.map noCopy }) := by
    rw [hr, Proto.mk.injEq]
    constructor
    · rintro ⟨h1, h2, h3, h4, h5⟩; exact ⟨h1, h2, h4, h5, h3⟩
    · rintro ⟨h1, h2, h4, h5, h3⟩; exact ⟨h1, h2, h3, h4, h5⟩
  cases r with
  | false =>
    refine ⟨false, rfl, ?_⟩
    simp only [Bool.false_eq_true, false_iff]
    intro h
    simp only [reqKey, Prod.mk.injEq] at h
    exact absurd (hkey.2 h.1) (by simp)
  | true =>
    refine ⟨_, rfl, ?_⟩
    simp only [Bool.and_eq_true, beq_iff_eq, reqKey, Prod.mk.injEq]
    constructor
    · rintro ⟨h1, h2⟩; exact ⟨hkey.1 rfl, h1, h2⟩
    · rintro ⟨_, h1, h2⟩; exact ⟨h1, h2⟩

theorem makeLoop_spec {p : Proto} {offs idx : Int} (hp : p.Full) : ∀ {cs : List GenCtx}, (∀ c ∈ cs, c.proto.Full) →
    (makeLoop p offs idx cs = some none ∧ ∀ c ∈ cs, c.key ≠ reqKey p offs idx) ∨
      ∃ A c B, cs = A ++ c :: B ∧ c.key = reqKey p offs idx ∧ makeLoop p offs idx cs = some (some (A ++ { c with refs := c.refs + 1 } :: B, c.pub)) := by
  intro cs
  induction cs with
  | nil => intro _; exact .inl ⟨rfl, by simp⟩
  | cons c cs ih =>
    intro hf
    obtain ⟨b, e, hb⟩ := same_iff (offs := offs) (idx := idx) (hf c (by simp)) hp
    rw [makeLoop, e]
    cases b with
    | true => exact .inr ⟨[], c, cs, rfl, hb.1 rfl, rfl⟩
    | false =>
      have hne : c.key ≠ reqKey p offs idx := fun h => absurd (hb.2 h) (by simp)
      rcases ih (fun c' hc' => hf c' (List.mem_cons_of_mem _ hc')) with ⟨e2, h2⟩ | ⟨A, c', B, e2, hk, e3⟩
      · refine .inl ⟨by rw [e2], ?_⟩
        intro c' hc'
        rcases List.mem_cons.1 hc' with h | h
        · rw [h]; exact hne
        · exact h2 c' h
      · exact .inr ⟨c :: A, c', B, by rw [e2]; rfl, hk, by rw [e3]; rfl⟩

theorem releaseLoop_spec {pub : Nat} : ∀ {cs : List GenCtx},
    (releaseLoop pub cs = (cs, none) ∧ ∀ c ∈ cs, c.pub ≠ pub) ∨
      ∃ A c B, cs = A ++ c :: B ∧ c.pub = pub ∧ releaseLoop pub cs = if c.refs - 1 = 0 then (A ++ B, some pub) else (A ++ { c with refs := c.refs - 1 } :: B, none) := by
  intro cs
  induction cs with
  | nil => exact .inl ⟨rfl, by simp⟩
  | cons c cs ih =>
    rw [releaseLoop]
    by_cases h : c.pub = pub
    · rw [if_pos h]
      refine .inr ⟨[], c, cs, rfl, h, ?_⟩
      split
      · rw [h]; rfl
      · rfl
    · rw [if_neg h]
      rcases ih with ⟨e, h2⟩ | ⟨A, c', B, e, hp, e2⟩
      · refine .inl ⟨by rw [e], ?_⟩
        intro c' hc'
        rcases List.mem_cons.1 hc' with h' | h'
        · rw [h']; exact h
        · exact h2 c' h'
      · refine .inr ⟨c :: A, c', B, by rw [e]; rfl, hp, ?_⟩
        rw [e2]
        split <;> rfl

theorem refsTo_cons (k : Key) (p q : Nat) (h : Held) : refsTo q ((k, p) :: h) = refsTo q h + if p = q then 1 else 0 := by
  unfold refsTo
  rw [List.countP_cons]
  by_cases e : p = q <;> simp [e]

theorem refsTo_giveBack (p q : Nat) (h : Held) : refsTo q (giveBack p h) = if p = q then refsTo q h - 1 else refsTo q h := by
  unfold refsTo
  induction h with
  | nil => simp [giveBack]
  | cons x xs ih =>
    rw [giveBack]
    by_cases e : x.2 = p
    · rw [if_pos e, List.countP_cons]
      by_cases e2 : p = q
      · subst e2; simp [e]
      · rw [if_neg e2, if_neg (by simp [e, e2])]; simp
    · rw [if_neg e, List.countP_cons, List.countP_cons, ih]
      by_cases e2 : p = q
      · subst e2; simp [e]
      · simp [e2]

theorem mem_giveBack {p : Nat} {x : Key × Nat} {h : Held} (hx : x ∈ giveBack p h) : x ∈ h := by
  induction h with
  | nil => exact hx
  | cons y ys ih =>
    rw [giveBack] at hx
    split at hx
    · exact List.mem_cons_of_mem _ hx
    · rcases List.mem_cons.1 hx with e | e
      · rw [e]; simp
      · exact List.mem_cons_of_mem _ (ih e)

theorem refsTo_pos {x : Key × Nat} {h : Held} (hx : x ∈ h) : 0 < refsTo x.2 h := by
  unfold refsTo
  exact List.countP_pos_iff.2 ⟨x, hx, by simp⟩

theorem pub_inj {s : Autogen} {h : Held} (hi : AInv s h) {c d : GenCtx} (hc : c ∈ s.ctxs) (hd : d ∈ s.ctxs) (e : c.pub = d.pub) : c = d := by
  have := hi.pubs
  unfold List.Nodup at this
  rw [List.pairwise_map] at this
  rcases List.mem_iff_getElem.1 hc with ⟨i, hi1, rfl⟩
  rcases List.mem_iff_getElem.1 hd with ⟨j, hj1, rfl⟩
  rcases Nat.lt_trichotomy i j with hlt | heq | hgt
  · exact absurd e (List.pairwise_iff_getElem.1 this i j hi1 hj1 hlt)
  · subst heq; rfl
  · exact absurd e.symm (List.pairwise_iff_getElem.1 this j i hj1 hi1 hgt)

theorem key_inj {s : Autogen} {h : Held} (hi : AInv s h) {c d : GenCtx} (hc : c ∈ s.ctxs) (hd : d ∈ s.ctxs) (e : c.key = d.key) : c = d := by
  have := hi.keys
  unfold List.Nodup at this
  rw [List.pairwise_map] at this
  rcases List.mem_iff_getElem.1 hc with ⟨i, hi1, rfl⟩
  rcases List.mem_iff_getElem.1 hd with ⟨j, hj1, rfl⟩
  rcases Nat.lt_trichotomy i j with hlt | heq | hgt
  · exact absurd e (List.pairwise_iff_getElem.1 this i j hi1 hj1 hlt)
  · subst heq; rfl
  · exact absurd e.symm (List.pairwise_iff_getElem.1 this j i hj1 hi1 hgt)

/-- What `MakeHookMan` does. -/
theorem make_cases {s : Autogen} {h : Held} (hi : AInv s h) {p : Proto} (hp : p.Full) (offs idx : Int) (gen : Nat) :
    (∃ A c B, s.ctxs = A ++ c :: B ∧ c.key = reqKey p offs idx ∧ s.make p offs idx gen = some ({ s with ctxs := A ++ { c with refs := c.refs + 1 } :: B }, c.pub)) ∨
      ((∀ c ∈ s.ctxs, c.key ≠ reqKey p offs idx) ∧ s.make p offs idx gen =
        if gen ≠ 0 then some ({ s with ctxs := s.ctxs ++ [{ proto := p, offs := offs, idx := idx, pub := gen, refs := 1 }] }, gen) else some (s, 0)) := by
  unfold Autogen.make
  rcases makeLoop_spec (offs := offs) (idx := idx) hp hi.full with ⟨e, h2⟩ | ⟨A, c, B, e, hk, e2⟩
  · rw [e]; exact .inr ⟨h2, rfl⟩
  · rw [e2]; exact .inl ⟨A, c, B, e, hk, rfl⟩

theorem auto_inv {s : Autogen} {h : Held} (hr : AutoRun s h) : AInv s h := by
  induction hr with
  | init => exact ⟨by simp [Autogen.init], by simp [Autogen.init], by simp [Autogen.init], by simp [Autogen.init], by simp [Autogen.init], by simp [Autogen.init], by simp⟩
  | @failed s s' h p offs idx gen _ hp hg e ih =>
    rcases make_cases ih hp offs idx gen with ⟨A, c, B, e1, hk, e2⟩ | ⟨hn, e2⟩
    · rw [e2] at e
      simp only [Option.some.injEq, Prod.mk.injEq] at e
      exact absurd e.2 (ih.nonzero c (by rw [e1]; simp))
    · rw [e2] at e
      split at e
      · simp only [Option.some.injEq, Prod.mk.injEq] at e
        rename_i hne
        exact absurd e.2 hne
      · simp only [Option.some.injEq, Prod.mk.injEq] at e
        rw [← e.1]; exact ih
  | @made s s' h p offs idx gen pub _ hp hg e hpub ih =>
    rcases make_cases ih hp offs idx gen with ⟨A, c, B, e1, hk, e2⟩ | ⟨hn, e2⟩
    · rw [e2] at e
      simp only [Option.some.injEq, Prod.mk.injEq] at e
      obtain ⟨rfl, rfl⟩ := e
      have hcm : c ∈ s.ctxs := by rw [e1]; simp
      have hmem : ∀ d, d ∈ A ++ { c with refs := c.refs + 1 } :: B → d = { c with refs := c.refs + 1 } ∨ (d ∈ s.ctxs ∧ d.pub ≠ c.pub) := by
        intro d hd
        have hnd := ih.pubs
        rw [e1] at hnd
        simp only [List.map_append, List.map_cons, List.nodup_append, List.nodup_cons, List.mem_map] at hnd
        simp only [List.mem_append, List.mem_cons] at hd
        rcases hd with hd | hd | hd
        · exact .inr ⟨by rw [e1]; simp [hd], fun e => hnd.2.2 _ ⟨d, hd, rfl⟩ c.pub (by simp) e⟩
        · exact .inl hd
        · exact .inr ⟨by rw [e1]; simp [hd], fun e => hnd.2.1.1 ⟨d, hd, e⟩⟩
      refine ⟨?_, ?_, ?_, ?_, ?_, ?_, ?_⟩
      · intro d hd
        rcases hmem d hd with hd | hd
        · rw [hd]; exact ih.full c hcm
        · exact ih.full d hd.1
      · have := ih.pubs; rw [e1] at this; simpa using this
      · have := ih.keys; rw [e1] at this; simpa [GenCtx.key] using this
      · intro d hd
        rcases hmem d hd with hd | hd
        · rw [hd]; exact ih.nonzero c hcm
        · exact ih.nonzero d hd.1
      · intro d hd
        rcases hmem d hd with hd | hd
        · rw [hd]; exact Nat.succ_pos _
        · exact ih.pos d hd.1
      · intro d hd
        rw [refsTo_cons]
        rcases hmem d hd with hd | hd
        · rw [hd]; simp only [if_true]; rw [← ih.refs c hcm]
        · rw [if_neg (fun e => hd.2 e.symm)]; exact ih.refs d hd.1
      · intro x hx
        rcases List.mem_cons.1 hx with hx | hx
        · exact ⟨{ c with refs := c.refs + 1 }, by simp, by rw [hx]; exact hk, by rw [hx]⟩
        · obtain ⟨d, hd, h1, h2⟩ := ih.held x hx
          rw [e1] at hd
          simp only [List.mem_append, List.mem_cons] at hd
          rcases hd with hd | hd | hd
          · exact ⟨d, by simp [hd], h1, h2⟩
          · exact ⟨{ c with refs := c.refs + 1 }, by simp, by rw [← h1, hd]; rfl, by rw [← h2, hd]⟩
          · exact ⟨d, by simp [hd], h1, h2⟩
    · rw [e2] at e
      split at e
      · rename_i hne
        simp only [Option.some.injEq, Prod.mk.injEq] at e
        obtain ⟨rfl, rfl⟩ := e
        refine ⟨?_, ?_, ?_, ?_, ?_, ?_, ?_⟩
        · intro d hd
          simp only [List.mem_append, List.mem_singleton] at hd
          rcases hd with hd | hd
          · exact ih.full d hd
          · rw [hd]; exact hp
        · simp only [List.map_append, List.map_cons, List.map_nil]
          rw [List.nodup_append]
          refine ⟨ih.pubs, by simp, ?_⟩
          intro a ha b hb
          obtain ⟨d, hd, rfl⟩ := List.mem_map.1 ha
          simp only [List.mem_singleton] at hb
          rw [hb]; exact hg d hd
        · simp only [List.map_append, List.map_cons, List.map_nil]
          rw [List.nodup_append]
          refine ⟨ih.keys, by simp, ?_⟩
          intro a ha b hb
          obtain ⟨d, hd, rfl⟩ := List.mem_map.1 ha
          simp only [List.mem_singleton] at hb
          rw [hb]; exact hn d hd
        · intro d hd
          simp only [List.mem_append, List.mem_singleton] at hd
          rcases hd with hd | hd
          · exact ih.nonzero d hd
          · rw [hd]; exact hpub
        · intro d hd
          simp only [List.mem_append, List.mem_singleton] at hd
          rcases hd with hd | hd
          · exact ih.pos d hd
          · rw [hd]; exact Nat.one_pos
        · intro d hd
          rw [refsTo_cons]
          simp only [List.mem_append, List.mem_singleton] at hd
          rcases hd with hd | hd
          · rw [if_neg (fun e => hg d hd e.symm)]; exact ih.refs d hd
          · rw [hd]
            have h0 : refsTo gen h = 0 := by
              rcases Nat.eq_zero_or_pos (refsTo gen h) with h0 | h0
              · exact h0
              · obtain ⟨x, hx, hx2⟩ := List.countP_pos_iff.1 h0
                obtain ⟨c, hc, _, hc2⟩ := ih.held x hx
                exact absurd (hc2.trans (by simpa using hx2)) (hg c hc)
            simp [h0]
        · intro x hx
          rcases List.mem_cons.1 hx with hx | hx
          · exact ⟨_, List.mem_append_right _ (List.mem_singleton.2 rfl), by rw [hx]; rfl, by rw [hx]⟩
          · obtain ⟨d, hd, h1, h2⟩ := ih.held x hx
            exact ⟨d, List.mem_append_left _ hd, h1, h2⟩
      · simp only [Option.some.injEq, Prod.mk.injEq] at e
        exact absurd e.2.symm hpub
  | @release s h pub _ ih =>
    unfold Autogen.release
    rcases releaseLoop_spec (pub := pub) (cs := s.ctxs) with ⟨e, hn⟩ | ⟨A, c, B, e1, hp, e2⟩
    · rw [e]
      refine ⟨ih.full, ih.pubs, ih.keys, ih.nonzero, ih.pos, ?_, fun x hx => ih.held x (mem_giveBack hx)⟩
      intro c hc
      rw [refsTo_giveBack, if_neg (fun e => hn c hc e.symm)]
      exact ih.refs c hc
    · rw [e2]
      have hcm : c ∈ s.ctxs := by rw [e1]; simp
      have hpubs := ih.pubs
      rw [e1] at hpubs
      simp only [List.map_append, List.map_cons, List.nodup_append, List.nodup_cons, List.mem_map] at hpubs
      have hA : ∀ d ∈ A, d ∈ s.ctxs ∧ d.pub ≠ c.pub := fun d hd => ⟨by rw [e1]; simp [hd], fun e => hpubs.2.2 _ ⟨d, hd, rfl⟩ c.pub (by simp) e⟩
      have hB : ∀ d ∈ B, d ∈ s.ctxs ∧ d.pub ≠ c.pub := fun d hd => ⟨by rw [e1]; simp [hd], fun e => hpubs.2.1.1 ⟨d, hd, e⟩⟩
      have hrefs := ih.refs c hcm
      by_cases h0 : c.refs - 1 = 0
      · rw [if_pos h0]
        have hone : refsTo pub (giveBack pub h) = 0 := by rw [refsTo_giveBack, if_pos rfl, ← hp, ← hrefs, h0]
        have hAB : ∀ d ∈ A ++ B, d ∈ s.ctxs ∧ d.pub ≠ c.pub := by
          intro d hd
          rcases List.mem_append.1 hd with hd | hd
          · exact hA d hd
          · exact hB d hd
        have hsub : (A ++ B).Sublist s.ctxs := by rw [e1]; exact List.Sublist.append_left (List.sublist_cons_self _ _) _
        refine ⟨fun d hd => ih.full d (hAB d hd).1, ih.pubs.sublist (hsub.map _), ih.keys.sublist (hsub.map _),
          fun d hd => ih.nonzero d (hAB d hd).1, fun d hd => ih.pos d (hAB d hd).1, ?_, ?_⟩
        · intro d hd
          rw [refsTo_giveBack, if_neg (fun e => (hAB d hd).2 (e.symm.trans hp.symm))]
          exact ih.refs d (hAB d hd).1
        · intro x hx
          obtain ⟨d, hd, h1, h2⟩ := ih.held x (mem_giveBack hx)
          have hx0 := refsTo_pos hx
          rw [e1] at hd
          simp only [List.mem_append, List.mem_cons] at hd
          rcases hd with hd | hd | hd
          · exact ⟨d, by simp [hd], h1, h2⟩
          · rw [← h2, hd, hp, hone] at hx0; exact absurd hx0 (by omega)
          · exact ⟨d, by simp [hd], h1, h2⟩
      · rw [if_neg h0]
        have hmem : ∀ d, d ∈ A ++ { c with refs := c.refs - 1 } :: B → d = { c with refs := c.refs - 1 } ∨ (d ∈ s.ctxs ∧ d.pub ≠ c.pub) := by
          intro d hd
          simp only [List.mem_append, List.mem_cons] at hd
          rcases hd with hd | hd | hd
          · exact .inr (hA d hd)
          · exact .inl hd
          · exact .inr (hB d hd)
        refine ⟨?_, ?_, ?_, ?_, ?_, ?_, ?_⟩
        · intro d hd
          rcases hmem d hd with hd | hd
          · rw [hd]; exact ih.full c hcm
          · exact ih.full d hd.1
        · have := ih.pubs; rw [e1] at this; simpa using this
        · have := ih.keys; rw [e1] at this; simpa [GenCtx.key] using this
        · intro d hd
          rcases hmem d hd with hd | hd
          · rw [hd]; exact ih.nonzero c hcm
          · exact ih.nonzero d hd.1
        · intro d hd
          rcases hmem d hd with hd | hd
          · rw [hd]; exact Nat.pos_of_ne_zero h0
          · exact ih.pos d hd.1
        · intro d hd
          rw [refsTo_giveBack]
          rcases hmem d hd with hd | hd
          · rw [hd]; dsimp only; rw [if_pos hp.symm, ← hrefs]
          · rw [if_neg (fun e => hd.2 (e.symm.trans hp.symm))]; exact ih.refs d hd.1
        · intro x hx
          obtain ⟨d, hd, h1, h2⟩ := ih.held x (mem_giveBack hx)
          rw [e1] at hd
          simp only [List.mem_append, List.mem_cons] at hd
          rcases hd with hd | hd | hd
          · exact ⟨d, by simp [hd], h1, h2⟩
          · exact ⟨{ c with refs := c.refs - 1 }, by simp, by rw [← h1, hd]; rfl, by rw [← h2, hd]⟩
          · exact ⟨d, by simp [hd], h1, h2⟩

/-! ## The claims -/

/-- C49: over every sequence of calls, while a reference to the code for a request is held, the same request gets the same public function,
and no code is generated. -/
theorem make_shared {s : Autogen} {h : Held} (hr : AutoRun s h) {p : Proto} (hp : p.Full) {offs idx : Int} {pub : Nat} (hh : (reqKey p offs idx, pub) ∈ h) (gen : Nat) :
    ∃ s', s.make p offs idx gen = some (s', pub) ∧ s'.ctxs.map GenCtx.pub = s.ctxs.map GenCtx.pub ∧ s'.freed = s.freed := by
  have hi := auto_inv hr
  obtain ⟨c, hc, hk, hp2⟩ := hi.held _ hh
  rcases make_cases hi hp offs idx gen with ⟨A, d, B, e1, hk2, e2⟩ | ⟨hn, _⟩
  · have : d = c := key_inj hi (by rw [e1]; simp) hc (hk2.trans hk.symm)
    rw [this] at e1 e2
    dsimp only at hp2
    rw [← hp2]
    exact ⟨_, e2, by simp [e1], rfl⟩
  · exact absurd hk (hn c hc)

/-- C49: two references held are to the same public function exactly when they are for the same request. -/
theorem pub_iff_request {s : Autogen} {h : Held} (hr : AutoRun s h) {k k' : Key} {p p' : Nat} (h1 : (k, p) ∈ h) (h2 : (k', p') ∈ h) : p = p' ↔ k = k' := by
  have hi := auto_inv hr
  obtain ⟨c, hc, hk, hp⟩ := hi.held _ h1
  obtain ⟨d, hd, hk', hp'⟩ := hi.held _ h2
  dsimp only at hk hp hk' hp'
  constructor
  · intro e
    rw [← hk, ← hk', pub_inj hi hc hd (hp.trans (e.trans hp'.symm))]
  · intro e
    rw [← hp, ← hp', key_inj hi hc hd (hk.trans (e.trans hk'.symm))]

/-- C49: generated code exists exactly while references to it are held, and its count is their number. -/
theorem code_iff_held {s : Autogen} {h : Held} (hr : AutoRun s h) (pub : Nat) : (∃ c ∈ s.ctxs, c.pub = pub) ↔ 0 < refsTo pub h := by
  have hi := auto_inv hr
  constructor
  · rintro ⟨c, hc, rfl⟩
    rw [← hi.refs c hc]; exact hi.pos c hc
  · intro h0
    obtain ⟨x, hx, hx2⟩ := List.countP_pos_iff.1 h0
    obtain ⟨c, hc, _, hc2⟩ := hi.held x hx
    exact ⟨c, hc, hc2.trans (by simpa using hx2)⟩

/-- C49: a release destroys code exactly when it gives back the last reference to it, and only that code. -/
theorem release_destroys {s : Autogen} {h : Held} (hr : AutoRun s h) (pub : Nat) :
    (s.release pub).freed = s.freed ++ (if refsTo pub h = 1 then [pub] else []) := by
  have hi := auto_inv hr
  unfold Autogen.release
  dsimp only
  rcases releaseLoop_spec (pub := pub) (cs := s.ctxs) with ⟨e, hn⟩ | ⟨A, c, B, e1, hp, e2⟩
  · rw [e]
    have : refsTo pub h = 0 := by
      rcases Nat.eq_zero_or_pos (refsTo pub h) with h0 | h0
      · exact h0
      · obtain ⟨c, hc, hc2⟩ := (code_iff_held hr pub).2 h0
        exact absurd hc2 (hn c hc)
    rw [this]; simp
  · have hc : c ∈ s.ctxs := by rw [e1]; simp
    have h1 := hi.refs c hc
    have h2 := hi.pos c hc
    rw [hp] at h1
    rw [e2, ← h1]
    by_cases h0 : c.refs - 1 = 0
    · rw [if_pos h0, if_pos (by omega)]; rfl
    · rw [if_neg h0, if_neg (by omega)]; rfl

/-- `MakeHookMan` destroys nothing. -/
theorem make_destroys_none {s s' : Autogen} {h : Held} (hr : AutoRun s h) {p : Proto} (hp : p.Full) {offs idx : Int} {gen pub : Nat}
    (e : s.make p offs idx gen = some (s', pub)) : s'.freed = s.freed := by
  rcases make_cases (auto_inv hr) hp offs idx gen with ⟨A, d, B, e1, hk2, e2⟩ | ⟨hn, e2⟩
  · rw [e2] at e
    simp only [Option.some.injEq, Prod.mk.injEq] at e
    rw [← e.1]
  · rw [e2] at e
    split at e <;> simp only [Option.some.injEq, Prod.mk.injEq] at e <;> rw [← e.1]

/-- `MakeHookMan` reads no parameter record that is not there. -/
theorem make_total {s : Autogen} {h : Held} (hr : AutoRun s h) {p : Proto} (hp : p.Full) (offs idx : Int) (gen : Nat) : (s.make p offs idx gen).isSome := by
  rcases make_cases (auto_inv hr) hp offs idx gen with ⟨A, d, B, e1, hk2, e2⟩ | ⟨hn, e2⟩
  · rw [e2]; rfl
  · rw [e2]; split <;> rfl

/-- Two requests, the first made twice and given back once. -/
example : ∃ s, AutoRun s [(reqKey ⟨1, 0, default, [], 1⟩ 0 3, 4096), (reqKey ⟨1, 0, default, [], 1⟩ 0 2, 8192)] := by
  have h1 : AutoRun _ _ := .made (p := ⟨1, 0, default, [], 1⟩) (offs := 0) (idx := 2) (gen := 8192) .init (by decide) (by simp [Autogen.init]) rfl (by decide)
  have h2 : AutoRun _ _ := .made (p := ⟨1, 0, default, [], 1⟩) (offs := 0) (idx := 2) (gen := 4096) h1 (by decide) (by decide) rfl (by decide)
  have h3 : AutoRun _ _ := .made (p := ⟨1, 0, default, [], 1⟩) (offs := 0) (idx := 3) (gen := 4096) h2 (by decide) (by decide) rfl (by decide)
  exact ⟨_, .release 8192 h3⟩

/-- The full claim fails: requests that differ in the copy constructor of a parameter get the same code, made for the first of them. -/
theorem copyCtor_not_compared : ∃ (p q : Proto) (s s' : Autogen), p.Full ∧ q.Full ∧ p ≠ q ∧ Autogen.init.make p 0 0 4096 = some (s, 4096) ∧ s.make q 0 0 8192 = some (s', 4096) :=
  ⟨⟨1, 1, default, [{ size := 8, type := 1, flags := 1, copyCtor := 7 }], 1⟩, ⟨1, 1, default, [{ size := 8, type := 1, flags := 1, copyCtor := 9 }], 1⟩, _, _,
    by decide, by decide, by decide, rfl, rfl⟩

/-- C49, what holds: all of the above together. -/
theorem autogen_partial {s : Autogen} {h : Held} (hr : AutoRun s h) :
    (∀ (p : Proto) (offs idx : Int) (pub gen : Nat), p.Full → (reqKey p offs idx, pub) ∈ h → ∃ s', s.make p offs idx gen = some (s', pub)) ∧
      (∀ x ∈ h, ∀ y ∈ h, x.2 = y.2 ↔ x.1 = y.1) ∧
      (∀ pub, (∃ c ∈ s.ctxs, c.pub = pub) ↔ 0 < refsTo pub h) ∧
      ∀ pub, (s.release pub).freed = s.freed ++ (if refsTo pub h = 1 then [pub] else []) :=
  ⟨fun _ _ _ _ gen hp hh => let ⟨s', e, _⟩ := make_shared hr hp hh gen; ⟨s', e⟩, fun _ hx _ hy => pub_iff_request hr hx hy, code_iff_held hr, release_destroys hr⟩

end Verif.SH

#print axioms Verif.SH.make_shared
#print axioms Verif.SH.pub_iff_request
#print axioms Verif.SH.code_iff_held
#print axioms Verif.SH.release_destroys
#print axioms Verif.SH.make_destroys_none
#print axioms Verif.SH.make_total
#print axioms Verif.SH.copyCtor_not_compared
#print axioms Verif.SH.autogen_partial
