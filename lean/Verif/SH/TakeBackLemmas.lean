import Verif.SH.TakeBack
import Verif.SH.ProtoProps
/- Lemmas for C100. -/
namespace Verif.SH.TakeBack

open Verif.SH

theorem eqb_refl {p : Proto} (h : p.WF ∧ 0 ≤ p.version) : p.eqb p = true := by
  unfold Proto.eqb; rw [proto_eq_refl p h.1 h.2]; rfl

/-- The hook of an addition is what the removal of the same arguments names. -/
theorem named_of {r : Reg} {a : AddArgs} {b : RemArgs} (hb : TakesBack a b) (ho : Ordinary a) {i : Info}
    (hi : a.info = some i) {k : Hook} (hd : descOf r k.id = some (i.proto, i.vtblOffs, i.vtblIdx))
    (hp : k.plug = a.plug) (hof : k.offs = a.offs) (hh : k.handler = a.handler) :
    Named r b (a.iface + a.offs) a.post k :=
  ⟨⟨i, _, hb.info.trans hi, hd, eqb_refl (ho.proto i hi), rfl, rfl⟩, by rw [hb.iface, hb.offs], by rw [hb.plug, hp],
    by rw [hb.offs, hof], by rw [hb.handler, hh], hb.post.symm⟩

/-- Being named does not change while the hook stays. -/
theorem named_stable {E : Env} {c : Bool} {mem0 : Addr → Addr} {r r' : Reg} (h : Reach E c mem0 r)
    (hl : Later E r r') {b : RemArgs} {p a p' a' : Addr} {s s' : Bool} {k k' : Hook}
    (h1 : k ∈ view r p a s) (h2 : k' ∈ view r' p' a' s') (he : k.nid = k'.nid) :
    Named r' b a' s' k' ↔ Named r b a s k := by
  obtain ⟨_, e2, e3, e4, e5, e6, e7⟩ := hook_identity_stable h hl h1 h2 he
  have hd := desc_stable h hl h1 h2 he
  subst e2 e3
  constructor
  · rintro ⟨⟨i, d, w1, w2, w3⟩, q1, q2, q3, q4, q5⟩
    exact ⟨⟨i, d, w1, by rw [← hd]; exact w2, w3⟩, q1, e5.trans q2, e6.trans q3, by rw [e7]; exact q4, q5⟩
  · rintro ⟨⟨i, d, w1, w2, w3⟩, q1, q2, q3, q4, q5⟩
    exact ⟨⟨i, d, w1, by rw [hd]; exact w2, w3⟩, q1, e5.symm.trans q2, e6.symm.trans q3, by rw [← e7]; exact q4, q5⟩

theorem later_trans {E : Env} {r r1 r2 : Reg} (h1 : Later E r r1) (h2 : Later E r1 r2) : Later E r r2 := by
  induction h2 with
  | refl => exact h1
  | step _ hok hs ih => exact .step ih hok hs
  | poke a val _ hna ih => exact .poke a val ih hna

/-- Further hooks may be added by the same plugin. -/
theorem addOk_after {E : Env} {c : Bool} {mem0 : Addr → Addr} {r r' : Reg} (h : Reach E c mem0 r) {a a' : AddArgs}
    {id : Int} (hok : AddOk r a) (hs : addHook E r a = .ok (r', id)) (hok' : AddOk r a') (hp : a.plug = a'.plug) :
    AddOk r' a' := by
  obtain ⟨hw, _⟩ := reach_inv h
  by_cases hv : ∃ info, AddValid a info
  · obtain ⟨info, hv⟩ := hv
    rcases hsl : slotOf r.mem a.mode a.iface a.offs info with ⟨slot, adj⟩
    obtain ⟨r2, id2, n, g1, g2, g3, g4, g5, g6, g7, g8, g9, g10, g11, g12⟩ := addHook_valid hw hok hv hsl
    rw [hs] at g1; cases g1
    intro m hm he
    rcases g12 m.oid m.plug m.pub m.info ⟨m, hm, rfl, rfl, rfl, rfl⟩ with ⟨m', hm', _, q2, q3, _⟩ | ⟨q1, _⟩
    · rw [← q2]; exact hok' m' hm' (q3.trans he)
    · exact q1.trans hp
  · rw [addHook_invalid E r a hv] at hs; cases hs; exact hok'

/-- The additions: every list grows at its end by hooks that the removals name. -/
theorem addAll_grows {E : Env} {c : Bool} {mem0 : Addr → Addr} {as : List AddArgs} : ∀ {r : Reg}, Reach E c mem0 r →
    (∀ a ∈ as, AddOk r a) → (∀ a ∈ as, ∀ a' ∈ as, a.plug = a'.plug) → (∀ a ∈ as, Ordinary a) →
    ∃ r1, addAll E r as = .ok r1 ∧ Reach E c mem0 r1 ∧ Later E r r1 ∧
      ∀ p o s, ∃ new, view r1 p o s = view r p o s ++ new ∧
        ∀ k ∈ new, (∀ p' o' s', ∀ k' ∈ view r p' o' s', k'.nid ≠ k.nid) ∧
          ∃ a ∈ as, ∀ b, TakesBack a b → Named r1 b o s k := by
  induction as with
  | nil => intro r h _ _ _; exact ⟨r, rfl, h, .refl r, fun p o s => ⟨[], by simp, fun k hk => by cases hk⟩⟩
  | cons a as ih =>
    intro r h hok hpl hor
    have hoka := hok a (List.mem_cons_self ..)
    obtain ⟨r', id, e1, e2, e3, e4⟩ := addHook_result h hoka
    have hr' : Reach E c mem0 r' := by
      have := Reach.step (op := .add a) (x := id) h hoka e1
      simpa using this
    have hl' : Later E r r' := .step (op := .add a) (.refl r) hoka e1
    obtain ⟨r1, f1, f2, f3, f4⟩ := ih hr'
      (fun a' ha' => addOk_after h hoka e1 (hok a' (List.mem_cons_of_mem _ ha'))
        (hpl a (List.mem_cons_self ..) a' (List.mem_cons_of_mem _ ha')))
      (fun x hx y hy => hpl x (List.mem_cons_of_mem _ hx) y (List.mem_cons_of_mem _ hy))
      (fun x hx => hor x (List.mem_cons_of_mem _ hx))
    refine ⟨r1, by simp [addAll, e1, bind, Except.bind, f1], f2, later_trans hl' f3, ?_⟩
    intro p o s
    obtain ⟨new2, g1, g2⟩ := f4 p o s
    -- what the first addition put at this place
    have hfirst : ∃ new1, view r' p o s = view r p o s ++ new1 ∧
        ∀ k ∈ new1, (∀ p' o' s', ∀ k' ∈ view r p' o' s', k'.nid ≠ k.nid) ∧ ∀ b, TakesBack a b → Named r' b o s k := by
      by_cases hid : id = 0
      · rw [e3 hid]; exact ⟨[], by simp, fun k hk => by cases hk⟩
      · have hex : a.mode ≤ 2 ∧ ∃ info, a.info = some info ∧ info.version ≠ -1 :=
          Classical.not_not.1 (fun hc => hid (e2.2 hc))
        obtain ⟨_, i, hi, hv⟩ := hex
        obtain ⟨_, q2, slot, adj, n, q3, q4, q5, q6⟩ := e4 i hid hi
        by_cases hc : (p, o, s) = (slot, adj, a.post)
        · cases hc
          refine ⟨_, q5, ?_⟩
          intro k hk
          rw [List.mem_singleton] at hk; subst hk
          refine ⟨fun p' o' s' k' hk' => q4 p' o' s' k' hk', ?_⟩
          intro b hb
          have hadj : o = a.iface + a.offs := by rw [q3.adj, if_pos (hor a (List.mem_cons_self ..)).mode]
          rw [hadj]
          exact named_of hb (hor a (List.mem_cons_self ..)) hi (desc_recorded h hoka hi e1 hid) rfl rfl rfl
        · exact ⟨[], by rw [q6 p o s hc]; simp, fun k hk => by cases hk⟩
    obtain ⟨new1, k1, k2⟩ := hfirst
    refine ⟨new1 ++ new2, by rw [g1, k1, List.append_assoc], ?_⟩
    intro k hk
    rcases List.mem_append.1 hk with hk | hk
    · refine ⟨(k2 k hk).1, a, List.mem_cons_self .., fun b hb => ?_⟩
      have m1 : k ∈ view r' p o s := by rw [k1]; exact List.mem_append_right _ hk
      have m2 : k ∈ view r1 p o s := by rw [g1]; exact List.mem_append_left _ m1
      exact (named_stable hr' f3 m1 m2 rfl).2 ((k2 k hk).2 b hb)
    · obtain ⟨w1, a', ha', w2⟩ := g2 k hk
      refine ⟨?_, a', List.mem_cons_of_mem _ ha', w2⟩
      intro p' o' s' k' hk' hn
      obtain ⟨new', x1, _⟩ : ∃ new', view r' p' o' s' = view r p' o' s' ++ new' ∧ True := by
        by_cases hid : id = 0
        · rw [e3 hid]; exact ⟨[], by simp, trivial⟩
        · have hex : a.mode ≤ 2 ∧ ∃ info, a.info = some info ∧ info.version ≠ -1 :=
            Classical.not_not.1 (fun hc => hid (e2.2 hc))
          obtain ⟨_, i, hi, hv⟩ := hex
          obtain ⟨_, q2, slot, adj, n, q3, q4, q5, q6⟩ := e4 i hid hi
          by_cases hc : (p', o', s') = (slot, adj, a.post)
          · cases hc; exact ⟨_, q5, trivial⟩
          · exact ⟨[], by rw [q6 _ _ _ hc]; simp, trivial⟩
      exact w1 p' o' s' k' (by rw [x1]; exact List.mem_append_left _ hk') hn

/-- One removal is a filter on every list. -/
theorem removeHook_filter {E : Env} {mem0 : Addr → Addr} {r : Reg} (hw : RegInv E mem0 r)
    (b : RemArgs) {r' : Reg} {x : Bool} {ns : List Note}
    (hs : removeHook E r b.plug b.iface b.offs b.info b.handler b.post = .ok (r', x, ns)) :
    ∃ f : Hook → Bool, ∀ p o s, view r' p o s = (view r p o s).filter f := by
  unfold removeHook at hs
  split at hs
  · cases hs; exact ⟨fun _ => true, fun p o s => (List.filter_eq_self.2 (fun _ _ => rfl)).symm⟩
  · next i hi =>
    dsimp only at hs
    split at hs
    · cases hs; exact ⟨fun _ => true, fun p o s => (List.filter_eq_self.2 (fun _ _ => rfl)).symm⟩
    · obtain ⟨r2, b2, ns2, g1, g2, g3, g4, g5, _⟩ := removeIds_spec (E := E)
        (idFindMatch r.entries i.proto i.vtblOffs i.vtblIdx (b.iface + b.offs) b.plug b.offs b.handler b.post) hw
      rw [g1] at hs; cases hs
      exact ⟨_, fun p o s => by rw [g3]; rfl⟩

/-- The removals: exactly the hooks that one of them names go, in every list. -/
theorem removeAll_filters {E : Env} {c : Bool} {mem0 : Addr → Addr} {bs : List RemArgs} : ∀ {r : Reg}, Reach E c mem0 r →
    ∃ r1, removeAll E r bs = .ok r1 ∧ Reach E c mem0 r1 ∧ Later E r r1 ∧
      ∀ p o s, ∃ f : Hook → Bool, view r1 p o s = (view r p o s).filter f ∧
        ∀ k ∈ view r p o s, f k = true ↔ ∀ b ∈ bs, ¬ Named r b o s k := by
  induction bs with
  | nil =>
    intro r h
    exact ⟨r, rfl, h, .refl r, fun p o s => ⟨fun _ => true, (List.filter_eq_self.2 (fun _ _ => rfl)).symm, fun k _ => by simp⟩⟩
  | cons b bs ih =>
    intro r h
    obtain ⟨r', x, ns, e1, _, e3, _⟩ := removeHook_exact h b.plug b.iface b.offs b.info b.handler b.post
    obtain ⟨f, hf⟩ := removeHook_filter (reach_inv h).1 b e1
    have hst : regStep E r (.remove b.plug b.iface b.offs b.info b.handler b.post) = .ok (r', b2i x) := by
      simp [regStep, e1, bind, Except.bind]
    have hr' : Reach E c mem0 r' := by
      have := Reach.step h (op := .remove b.plug b.iface b.offs b.info b.handler b.post) trivial hst
      simpa using this
    have hl' : Later E r r' := .step (.refl r) (op := .remove b.plug b.iface b.offs b.info b.handler b.post) trivial hst
    obtain ⟨r1, f1, f2, f3, f4⟩ := ih hr'
    refine ⟨r1, by simp [removeAll, e1, bind, Except.bind, f1], f2, later_trans hl' f3, ?_⟩
    intro p o s
    obtain ⟨g, g1, g2⟩ := f4 p o s
    refine ⟨fun k => f k && g k, ?_, ?_⟩
    · rw [g1, hf, List.filter_filter]
      congr 1; funext k; exact Bool.and_comm _ _
    · intro k hk
      have hfk : f k = true ↔ ¬ Named r b o s k := by
        have := e3 p o s k
        rw [hf, List.mem_filter] at this
        exact ⟨fun q => (this.1 ⟨hk, q⟩).2, fun q => (this.2 ⟨hk, q⟩).2⟩
      rw [Bool.and_eq_true]
      constructor
      · rintro ⟨q1, q2⟩ b' hb'
        rcases List.mem_cons.1 hb' with e | hb'
        · rw [e]; exact hfk.1 q1
        · have hk' : k ∈ view r' p o s := by rw [hf, List.mem_filter]; exact ⟨hk, q1⟩
          intro hn
          exact (g2 k hk').1 q2 b' hb' ((named_stable h hl' hk hk' rfl).2 hn)
      · intro q
        have q1 := hfk.2 (q b (List.mem_cons_self ..))
        have hk' : k ∈ view r' p o s := by rw [hf, List.mem_filter]; exact ⟨hk, q1⟩
        refine ⟨q1, (g2 k hk').2 (fun b' hb' hn => ?_)⟩
        exact q b' (List.mem_cons_of_mem _ hb') ((named_stable h hl' hk hk' rfl).1 hn)

end Verif.SH.TakeBack
