import Verif.SH.RegUnload
/-
Pausing and unpausing.
-/
namespace Verif.SH

/-- A hook with its paused flag set to `b` if it satisfies `p`. -/
def pauseIf (p : Hook → Bool) (b : Bool) (h : Hook) : Hook := if p h then { h with paused := b } else h

/-- The view with hooks (un)paused. -/
def pauseV (vw : Addr → Addr → Bool → List Hook) (p : Hook → Bool) (b : Bool) : Addr → Addr → Bool → List Hook :=
  fun q a s => (vw q a s).map (pauseIf p b)

theorem pauseIf_nid (p : Hook → Bool) (b : Bool) (h : Hook) : (pauseIf p b h).nid = h.nid := by
  unfold pauseIf; split <;> rfl

theorem pauseIf_id (p : Hook → Bool) (b : Bool) (h : Hook) : (pauseIf p b h).id = h.id := by
  unfold pauseIf; split <;> rfl

theorem pauseIf_data (p : Hook → Bool) (b : Bool) (h : Hook) :
    (pauseIf p b h).plug = h.plug ∧ (pauseIf p b h).offs = h.offs ∧ (pauseIf p b h).handler = h.handler := by
  unfold pauseIf; split <;> exact ⟨rfl, rfl, rfl⟩

theorem IdInv.pause {vw : Addr → Addr → Bool → List Hook} {es : List Entry} (hi : IdInv vw es)
    (p : Hook → Bool) (b : Bool) : IdInv (pauseV vw p b) es := by
  refine ⟨?_, ?_, ?_⟩
  · intro q a s h hh
    obtain ⟨k, hk, rfl⟩ := List.mem_map.1 hh
    obtain ⟨e, h1, h2, h3, h4, h5, h6, h7⟩ := hi.entry q a s k hk
    obtain ⟨d1, d2, d3⟩ := pauseIf_data p b k
    exact ⟨e, by rw [pauseIf_id]; exact h1, h2, h3, h4, by rw [d1]; exact h5, by rw [d2]; exact h6, by rw [d3]; exact h7⟩
  · intro id e he
    obtain ⟨k, hk, h1⟩ := hi.hook id e he
    exact ⟨pauseIf p b k, List.mem_map.2 ⟨k, hk, rfl⟩, by rw [pauseIf_id]; exact h1⟩
  · intro q a s
    unfold pauseV
    rw [List.map_map]
    have : (Hook.id ∘ pauseIf p b) = Hook.id := by funext h; exact pauseIf_id p b h
    rw [this]; exact hi.nodup q a s

theorem NidInv.pause {vw : Addr → Addr → Bool → List Hook} {n : Nat} {d : List Nat} (hi : NidInv vw n d)
    (p : Hook → Bool) (b : Bool) : NidInv (pauseV vw p b) n d := by
  refine ⟨?_, ?_, hi.nodup, hi.lt, ?_⟩
  · intro p1 a1 s1 h1 p2 a2 s2 h2 k1 k2 hn
    obtain ⟨x, hx, rfl⟩ := List.mem_map.1 k1
    obtain ⟨y, hy, rfl⟩ := List.mem_map.1 k2
    rw [pauseIf_nid, pauseIf_nid] at hn
    obtain ⟨e1, e2, e3, e4⟩ := hi.uniq _ _ _ _ _ _ _ _ hx hy hn
    exact ⟨e1, e2, e3, by rw [e4]⟩
  · intro q a s h hh
    obtain ⟨x, hx, rfl⟩ := List.mem_map.1 hh
    rw [pauseIf_nid]; exact hi.live _ _ _ _ hx
  · intro q a s h hh
    obtain ⟨x, hx, rfl⟩ := List.mem_map.1 hh
    rw [pauseIf_nid]; exact hi.ltv _ _ _ _ hx

theorem setPausedL_eq {l : List Hook} (hn : (l.map Hook.id).Nodup) (id : Int) (b : Bool) :
    setPausedL id b l = l.map (pauseIf (fun h => h.id == id) b) := by
  induction l with
  | nil => rfl
  | cons x xs ih =>
    rw [List.map_cons, List.nodup_cons] at hn
    unfold setPausedL
    by_cases hx : x.id = id
    · rw [if_pos hx, List.map_cons]
      have h1 : pauseIf (fun h => h.id == id) b x = { x with paused := b } := by
        unfold pauseIf; simp [hx]
      rw [h1]
      congr 1
      symm
      have : ∀ y ∈ xs, pauseIf (fun h => h.id == id) b y = y := by
        intro y hy
        have : y.id ≠ id := by
          intro hc; exact hn.1 (List.mem_map.2 ⟨y, hy, by rw [hc, hx]⟩)
        unfold pauseIf; simp [this]
      rw [List.map_congr_left this, List.map_id']
    · rw [if_neg hx, List.map_cons, ih hn.2]
      have h1 : pauseIf (fun h => h.id == id) b x = x := by
        unfold pauseIf; simp [hx]
      rw [h1]

theorem setHookPaused_none {r : Reg} {id : Int} (b : Bool) (hq : idQuery r.entries id = none) :
    setHookPaused r id b = (r, false) := by
  unfold setHookPaused; rw [hq]

/-- What pausing leaves alone. -/
structure PauseFrame (r r' : Reg) : Prop where
  entries : r'.entries = r.entries
  hms : r'.hms = r.hms
  mem : r'.mem = r.mem
  stored : r'.stored = r.stored
  next : r'.next = r.next
  deleted : r'.deleted = r.deleted

theorem setHookPaused_spec {E : Env} {mem0 : Addr → Addr} {r : Reg} (hw : RegInv E mem0 r) {id : Int} {e : Entry}
    (b : Bool) (hq : idQuery r.entries id = some e) :
    ∃ r', setHookPaused r id b = (r', true) ∧ RegInv E mem0 r' ∧ PauseFrame r r' ∧ (OwnInv r → OwnInv r') ∧
      view r' = pauseV (view r) (fun h => h.id == id) b := by
  obtain ⟨v, i, h, hl⟩ := idLoc_of_query hw.toWInv hq
  have hV := hw.s.vi v hl.hv
  have f1 : r.vfns.find? (·.ptr == e.vfnptr) = some v := find?_key' hw.s.vptr hl.hv hl.vptr
  have f2 : v.ifaces.find? (·.ptr == e.adj) = some i := find?_key' hV.iptr hl.hi hl.iptr
  have hvw : view r v.ptr i.ptr e.post = i.side e.post := by rw [view_mem hw.s hl.hv, viewV_mem hV hl.hi]
  have hnd : ((i.side e.post).map Hook.id).Nodup := by
    have := hw.ids.nodup v.ptr i.ptr e.post
    rwa [hvw] at this
  have f3 : (i.side e.post).find? (·.id == id) = some h := find?_key' hnd hl.hh hl.hid
  have hhv : h ∈ view r v.ptr i.ptr e.post := view_intro hw.s hl.hv hl.hi hl.hh
  unfold setHookPaused
  rw [hq]
  simp only [f1, f2, f3]
  rw [setPausedL_eq hnd]
  generalize hL : (i.side e.post).map (pauseIf (fun h => h.id == id) b) = L
  have hvi : VInv r.next (v.setIface (i.setSide e.post L)) := by
    refine setIface_VInv hV (Nat.le_refl _) hl.hi _ _ ?_ ?_
    · rw [← hL, List.pairwise_map]
      simp only [pauseIf_nid]
      exact hV.sorted i hl.hi _
    · intro k hk
      rw [← hL] at hk
      obtain ⟨x, hx, rfl⟩ := List.mem_map.1 hk
      rw [pauseIf_nid]; exact hV.hlt i hl.hi _ x hx
  have hview1 : view (setVfn r (v.setIface (i.setSide e.post L))) = pauseV (view r) (fun h => h.id == id) b := by
    funext p a s
    rw [view_setSide (r2 := setVfn r (v.setIface (i.setSide e.post L))) hw.s hl.hv hl.hi e.post L rfl (Nat.le_refl _) hvi]
    split
    · next hc => obtain ⟨rfl, rfl, rfl⟩ := hc; unfold pauseV; rw [hvw, hL]
    · next hc =>
      unfold pauseV
      symm
      have : ∀ k ∈ view r p a s, pauseIf (fun h => h.id == id) b k = k := by
        intro k hk
        have : k.id ≠ id := by
          intro hkc
          obtain ⟨e1, h1, h2, h3, h4, _⟩ := hw.ids.entry _ _ _ _ hhv
          obtain ⟨e', h1', h2', h3', h4', _⟩ := hw.ids.entry _ _ _ _ hk
          rw [hkc, ← hl.hid, h1] at h1'
          cases h1'
          exact hc ⟨h2'.symm.trans h2, h3'.symm.trans h3, h4'.symm.trans h4⟩
        unfold pauseIf; simp [this]
      rw [List.map_congr_left this, List.map_id']
  have hmi := mem_setIface hl.hi (i.setSide_oid e.post L)
  refine ⟨_, rfl, ⟨?_, ?_⟩, ⟨rfl, rfl, rfl, rfl, rfl, rfl⟩, ?_, hview1⟩
  · refine hw.toWInv.reif hl.hv _ rfl rfl rfl rfl (Nat.le_refl _) hvi ?_ ?_
    · rw [hview1]; exact hw.ids.pause _ _
    · rw [hview1]; exact hw.nid.pause _ _
  · intro x hx
    rcases (mem_setVfn (v' := v.setIface (i.setSide e.post L)) hl.hv rfl x).1 hx with rfl | ⟨hx1, _⟩
    · refine ⟨?_, (hw.ne v hl.hv).2.1, ?_⟩
      · intro hc
        have := (hmi _).2 (Or.inl rfl)
        rw [hc] at this; cases this
      · intro j hj
        rcases (hmi j).1 hj with rfl | ⟨hj, _⟩
        · have : L ≠ [] := by
            rw [← hL]; intro hc
            have := List.map_eq_nil_iff.1 hc
            have h1 := hl.hh
            rw [this] at h1; cases h1
          have h2 : (i.setSide e.post L).side e.post = L := by rw [Iface.side_setSide, if_pos rfl]
          rintro ⟨q1, q2⟩
          apply this
          rw [← h2]
          cases hp : e.post
          · rw [hp] at q1; exact q1
          · rw [hp] at q2; exact q2
        · exact (hw.ne v hl.hv).2.2 j hj
    · exact hw.ne x hx1
  · intro hown x hx j hj s k hk
    rcases (mem_setVfn (v' := v.setIface (i.setSide e.post L)) hl.hv rfl x).1 hx with rfl | ⟨hx1, _⟩
    · rcases (hmi j).1 hj with rfl | ⟨hj, _⟩
      · rw [Iface.side_setSide] at hk
        split at hk
        · rw [← hL] at hk
          obtain ⟨y, hy, rfl⟩ := List.mem_map.1 hk
          obtain ⟨o, ho, pub, info, hh⟩ := hown v hl.hv i hl.hi _ y hy
          exact ⟨o, ho, pub, info, by rw [(pauseIf_data ..).1]; exact hh⟩
        · exact hown v hl.hv i hl.hi s k hk
      · exact hown v hl.hv j hj s k hk
    · exact hown x hx1 j hj s k hk

theorem PauseFrame.trans {a b c : Reg} (h1 : PauseFrame a b) (h2 : PauseFrame b c) : PauseFrame a c :=
  ⟨h2.entries.trans h1.entries, h2.hms.trans h1.hms, h2.mem.trans h1.mem, h2.stored.trans h1.stored,
    h2.next.trans h1.next, h2.deleted.trans h1.deleted⟩

theorem foldPaused_spec {E : Env} {mem0 : Addr → Addr} (ids : List Int) (b : Bool) {r : Reg} (hw : RegInv E mem0 r) :
    let r' := ids.foldl (fun r id => (setHookPaused r id b).1) r
    RegInv E mem0 r' ∧ PauseFrame r r' ∧ (OwnInv r → OwnInv r') ∧
      view r' = pauseV (view r) (fun h => decide (h.id ∈ ids)) b := by
  induction ids generalizing r with
  | nil =>
    refine ⟨hw, ⟨rfl, rfl, rfl, rfl, rfl, rfl⟩, id, ?_⟩
    funext p a s
    have : ∀ y ∈ view r p a s, pauseIf (fun h => decide (h.id ∈ ([] : List Int))) b y = y := by
      intro y _; unfold pauseIf; simp
    unfold pauseV
    rw [List.map_congr_left this, List.map_id']; rfl
  | cons id ids ih =>
    rw [List.foldl_cons]
    cases hq : idQuery r.entries id with
    | none =>
      rw [setHookPaused_none b hq]
      obtain ⟨h1, h2, h3, h4⟩ := ih hw
      refine ⟨h1, h2, h3, ?_⟩
      rw [h4]
      funext p a s
      unfold pauseV
      apply List.map_congr_left
      intro h hh
      have : h.id ≠ id := by
        intro hc
        obtain ⟨e, he, _⟩ := hw.ids.entry p a s h hh
        rw [hc, hq] at he; cases he
      unfold pauseIf; simp [this]
    | some e =>
      obtain ⟨r1, g1, g2, g3, g4, g5⟩ := setHookPaused_spec hw b hq
      rw [g1]
      obtain ⟨h1, h2, h3, h4⟩ := ih g2
      refine ⟨h1, g3.trans h2, fun h => h3 (g4 h), ?_⟩
      rw [h4, g5]
      funext p a s
      unfold pauseV
      rw [List.map_map]
      apply List.map_congr_left
      intro h hh
      simp only [Function.comp]
      unfold pauseIf
      by_cases hid : h.id = id
      · simp [hid]
      · simp [hid]

theorem setPluginPaused_spec {E : Env} {mem0 : Addr → Addr} (plug : Plugin) (b : Bool) {r : Reg} (hw : RegInv E mem0 r) :
    RegInv E mem0 (setPluginPaused r plug b) ∧ PauseFrame r (setPluginPaused r plug b) ∧
      (OwnInv r → OwnInv (setPluginPaused r plug b)) ∧
      view (setPluginPaused r plug b) = pauseV (view r) (fun h => h.plug == plug) b := by
  obtain ⟨h1, h2, h3, h4⟩ := foldPaused_spec (idFindPlug r.entries plug) b hw
  refine ⟨h1, h2, h3, h4.trans ?_⟩
  funext p a s
  unfold pauseV
  apply List.map_congr_left
  intro h hh
  have hiff : h.id ∈ idFindPlug r.entries plug ↔ h.plug = plug := by
    obtain ⟨e, k1, _, _, _, k2, _⟩ := hw.ids.entry p a s h hh
    rw [mem_idFindPlug]
    constructor
    · rintro ⟨e', q1, q2⟩
      rw [k1] at q1; cases q1
      rw [← k2, q2]
    · intro hp; exact ⟨e, k1, by rw [k2, hp]⟩
  unfold pauseIf
  simp [hiff]

end Verif.SH
