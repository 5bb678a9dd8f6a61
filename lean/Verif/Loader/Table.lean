import Verif.Loader.Inv
/-
What happens to the server plugin's own table over all programs: only a Load changes it, once each.
-/
namespace Verif.Loader

/-- The table changes by `adapt` alone, at most once for each use of the callbacks, and for a known engine. -/
def Tab (s s' : St) : Prop := s.backend ≤ 28 → s'.backend ≤ 28 ∧
  ∃ bs : List Nat, s'.vtab = bs.foldl (fun t b => adapt b t) s.vtab ∧ used s.log + bs.length ≤ used s'.log ∧ ∀ b ∈ bs, b < 28

theorem Tab.refl (s : St) : Tab s s := fun h => ⟨h, [], rfl, by simp, by simp⟩

theorem Tab.trans {a b c : St} (h : Tab a b) (g : Tab b c) : Tab a c := fun i => by
  obtain ⟨h1, bs, h2, h3, h4⟩ := h i
  obtain ⟨g1, cs, g2, g3, g4⟩ := g h1
  refine ⟨g1, bs ++ cs, by rw [g2, h2, List.foldl_append], by rw [List.length_append]; omega, ?_⟩
  intro x hx
  exact (List.mem_append.1 hx).elim (h4 x) (g4 x)

theorem Tab.via {a b c : St} (g : Tab b c) (h : Tab a b) : Tab a c := h.trans g

theorem Tab.same {s s' : St} (h1 : s'.vtab = s.vtab) (h2 : s'.log = s.log) (h3 : s'.backend = s.backend) : Tab s s' := fun i =>
  ⟨by rw [h3]; exact i, [], h1, by rw [h2]; simp, by simp⟩

/-- External code changes it in no other way. -/
def GoodT (h : Beh) : Prop := ∀ c n s s' a, h c n s = .ok (s', a) → Tab s s'

/-- Calls of functions change it in no other way. -/
def GoodTC (c : Caller) : Prop := ∀ f s r, c f s = .ok r → Tab s r.1

theorem note_tab {s : St} {e : Ev} : Tab s (s.note e) := fun i =>
  ⟨i, [], rfl, by simp [St.note, used], by simp⟩

theorem ext_tab {h : Beh} (hg : GoodT h) {c : Call} {s : St} {r : St × Nat × Int} (e : ext h c s = .ok r) : Tab s r.1 := by
  obtain ⟨x, e1, e⟩ := bind_ok e
  cases e
  exact (note_tab.trans (hg _ _ _ _ _ e1)).trans note_tab

theorem extIn_tab {h : Beh} (hg : GoodT h) {l : Nat} {c : Call} {s : St} {r : St × Nat × Int} (e : extIn h l c s = .ok r) : Tab s r.1 := by
  unfold extIn at e
  split at e
  · exact ext_tab hg e
  · cases e

theorem closeLib_tab {l : Option Nat} {s s' : St} (e : closeLib l s = .ok s') : Tab s s' := by
  unfold closeLib at e
  split at e
  · cases e
  · split at e
    · cases e; exact .same rfl rfl rfl
    · cases e

theorem unloadCore_tab {s s' : St} (e : unloadCore s = .ok s') : Tab s s' := by
  obtain ⟨x, e1, e⟩ := bind_ok e
  cases e
  exact (closeLib_tab e1).trans (.same rfl rfl rfl)

theorem loadCore_tab {h : Beh} (hg : GoodT h) {s : St} {r : St × Bool} (e : loadCore h s = .ok r) : Tab s r.1 := by
  obtain ⟨x, e1, e⟩ := bind_ok e
  have := ext_tab hg e1
  split at e <;> cases e <;> exact this.trans (.same rfl rfl rfl)

theorem coreSym_tab {h : Beh} (hg : GoodT h) {v : Bool} {s : St} {r : St × Bool} (e : coreSym h v s = .ok r) : Tab s r.1 := by
  unfold coreSym at e
  split at e
  · cases e
  · obtain ⟨x, e1, e⟩ := bind_ok e
    cases e
    exact extIn_tab hg e1

theorem patchInit_tab {w : World} {p : Bool} {s s' : St} (e : patchInit w p s = .ok s') : Tab s s' := by
  unfold patchInit at e
  split at e
  · cases e
  · split at e <;> cases e <;> exact .same rfl rfl rfl

theorem patchShutdown_tab {w : World} {k : Nat} {s s' : St} (e : patchShutdown w k s = .ok s') : Tab s s' := by
  unfold patchShutdown at e
  split at e
  · cases e
  · cases e; exact .same rfl rfl rfl

theorem patchConnect_tab {w : World} {p : Bool} {s s' : St} (e : patchConnect w p s = .ok s') : Tab s s' := by
  unfold patchConnect at e
  split at e
  · cases e
  · split at e <;> cases e <;> exact .same rfl rfl rfl

theorem connect_tab {w : World} {c : Caller} (hc : GoodTC c) {s : St} {r : St × Nat} (e : connect w c s = .ok r) : Tab s r.1 := by
  unfold connect at e
  split at e
  · cases e
  · obtain ⟨x, e1, e⟩ := bind_ok e
    obtain ⟨y, e2, e⟩ := bind_ok e
    cases e
    exact (hc _ _ _ e1).trans (patchConnect_tab e2)

theorem findEngine_tab {h : Beh} (hg : GoodT h) {s2 : Bool} {s s' : St} (e : findEngine h s2 s = .ok s') : Tab s s' := by
  obtain ⟨x, e1, e⟩ := bind_ok e
  cases e
  refine (ext_tab hg e1).trans fun i => ⟨?_, [], rfl, by simp, by simp⟩
  dsimp only
  split
  · split <;> omega
  · omega

theorem getBridge_tab {h : Beh} (hg : GoodT h) {s2 : Bool} {s s' : St} (e : getBridge h s2 s = .ok s') : Tab s s' := by
  unfold getBridge at e
  split at e
  · cases e; exact .refl _
  · obtain ⟨x, e1, e⟩ := bind_ok e
    have h1 := loadCore_tab hg e1
    split at e
    · cases e; exact h1
    · obtain ⟨y, e2, e⟩ := bind_ok e
      have h2 := coreSym_tab hg e2
      split at e
      · exact (h1.trans h2).trans (unloadCore_tab e)
      · cases e; exact (h1.trans h2).trans (.same rfl rfl rfl)

theorem callPre_tab {h : Beh} (hg : GoodT h) {s s' : St} (e : callPre h s = .ok s') : Tab s s' := by
  unfold callPre at e
  split at e
  · cases e; exact .refl _
  · obtain ⟨x, e1, e⟩ := bind_ok e
    have h1 := extIn_tab hg e1
    split at e
    · exact .via (unloadCore_tab e) (h1.trans (.same rfl rfl rfl))
    · cases e; exact h1

theorem afterInit_tab {w : World} {h : Beh} (hg : GoodT h) {v : Nat} {s s' : St} (e : afterInit w h v s = .ok s') : Tab s s' := by
  unfold afterInit at e
  split at e
  · split at e
    · cases e
    · obtain ⟨x, e1, e⟩ := bind_ok e
      obtain ⟨y, e2, e⟩ := bind_ok e
      cases e
      exact ((extIn_tab hg e1).trans (unloadCore_tab e2)).trans (.same rfl rfl rfl)
  · split at e
    · cases e; exact .refl _
    · obtain ⟨x, e1, e⟩ := bind_ok e
      exact (extIn_tab hg e1).trans (patchShutdown_tab e)

theorem callInit_tab {c : Caller} (hc : GoodTC c) {s : St} {r : St × Nat} (e : callInit c s = .ok r) : Tab s r.1 := by
  unfold callInit at e
  split at e
  · cases e
  · exact hc _ _ _ e

theorem dllInit_tab {w : World} {h : Beh} (hg : GoodT h) {c : Caller} (hc : GoodTC c) {s2 : Bool} {s : St} {r : St × Nat} (e : dllInit w h c s2 s = .ok r) : Tab s r.1 := by
  obtain ⟨a, e1, e⟩ := bind_ok e
  obtain ⟨b, e2, e⟩ := bind_ok e
  obtain ⟨d, e3, e⟩ := bind_ok e
  obtain ⟨f, e4, e⟩ := bind_ok e
  obtain ⟨g, e5, e⟩ := bind_ok e
  obtain ⟨k, e6, e⟩ := bind_ok e
  cases e
  exact (((((findEngine_tab hg e1).trans (getBridge_tab hg e2)).trans (callPre_tab hg e3)).trans (callInit_tab hc e4)).trans (afterInit_tab hg e5)).trans (patchInit_tab e6)

theorem dllShutdown_tab {h : Beh} (hg : GoodT h) {c : Caller} (hc : GoodTC c) {s : St} {r : St × Nat} (e : dllShutdown h c s = .ok r) : Tab s r.1 := by
  unfold dllShutdown at e
  split at e
  · cases e
  · obtain ⟨x, e1, e⟩ := bind_ok e
    obtain ⟨y, e2, e⟩ := bind_ok e
    split at e
    · cases e
    · obtain ⟨z, e3, e⟩ := bind_ok e
      obtain ⟨u, e4, e⟩ := bind_ok e
      cases e
      exact ((((Tab.via (unloadCore_tab e2) ((extIn_tab hg e1).trans (.same rfl rfl rfl)))).trans (hc _ _ _ e3)).trans (closeLib_tab e4)).trans (.same rfl rfl rfl)

theorem invoke_tab {w : World} {h : Beh} (hg : GoodT h) (n : Nat) : GoodTC (invoke w h n) := by
  induction n with
  | zero => intro f s r e; cases e
  | succ n ih =>
    intro f s r e
    unfold invoke at e
    split at e
    · exact dllInit_tab hg ih e
    split at e
    · exact dllInit_tab hg ih e
    split at e
    · exact connect_tab ih e
    split at e
    · exact dllShutdown_tab hg ih e
    split at e
    · cases e
    · obtain ⟨x, e1, e⟩ := bind_ok e
      cases e
      exact ext_tab hg e1

theorem detectInfo_tab {h : Beh} (hg : GoodT h) {s : St} {r : St × Bool} (e : detectInfo h s = .ok r) : Tab s r.1 := by
  unfold detectInfo at e
  split at e
  · cases e; exact .refl _
  · obtain ⟨x, e1, e⟩ := bind_ok e
    have h1 := Tab.via (ext_tab hg e1) (Tab.same (s := s) rfl rfl rfl)
    split at e
    · cases e; exact h1
    · cases e
      exact h1.trans (.same rfl rfl rfl)

theorem cacheLib_tab {h : Beh} (hg : GoodT h) {i : Nat} {s : St} {r : St × Option Nat} (e : cacheLib h i s = .ok r) : Tab s r.1 := by
  unfold cacheLib at e
  split at e
  · cases e; exact .refl _
  · obtain ⟨x, e1, e⟩ := bind_ok e
    have h1 := ext_tab hg e1
    split at e <;> cases e
    · exact h1
    · exact h1.trans (.same rfl rfl rfl)

theorem tryLib_tab {h : Beh} (hg : GoodT h) {name : List Byte} {i : Nat} {s : St} {r : St × Option (Nat × Nat)} (e : tryLib h name i s = .ok r) : Tab s r.1 := by
  obtain ⟨x, e1, e⟩ := bind_ok e
  have h1 := cacheLib_tab hg e1
  dsimp only at e
  split at e
  · cases e; exact h1
  · obtain ⟨y, e2, e⟩ := bind_ok e
    have h2 := h1.trans (extIn_tab hg e2)
    split at e
    · cases e; exact h2
    · obtain ⟨z, e3, e⟩ := bind_ok e
      have h3 := h2.trans (extIn_tab hg e3)
      split at e <;> cases e
      · exact h3
      · exact h3.trans (.same rfl rfl rfl)

theorem search_tab {h : Beh} (hg : GoodT h) {name : List Byte} (n : Nat) : ∀ {i : Nat} {s : St} {r : St × Option (Nat × Nat)},
    search h name n i s = .ok r → Tab s r.1 := by
  induction n with
  | zero => intro i s r e; cases e; exact .refl _
  | succ n ih =>
    intro i s r e
    unfold search at e
    split at e
    · obtain ⟨x, e1, e⟩ := bind_ok e
      have h1 := tryLib_tab hg e1
      split at e
      · cases e; exact h1
      · exact h1.trans (ih e)
    · cases e; exact .refl _

theorem freeCached_tab (n : Nat) : ∀ {i : Nat} {s s' : St}, freeCached n i s = .ok s' → Tab s s' := by
  induction n with
  | zero => intro i s s' e; cases e; exact .refl _
  | succ n ih =>
    intro i s s' e
    unfold freeCached at e
    split at e
    · split at e
      · exact ih e
      · obtain ⟨x, e1, e⟩ := bind_ok e
        exact (closeLib_tab e1).trans (ih e)
    · cases e; exact .refl _

theorem tookConfig_tab {w : World} {l p : Nat} {s s' : St} (e : tookConfig w l p s = .ok s') : Tab s s' := by
  obtain ⟨x, e1, e⟩ := bind_ok e
  exact .via (patchConnect_tab e) ((freeCached_tab _ e1).trans (.same rfl rfl rfl))

theorem tookGame_tab {w : World} {l p : Nat} {s s' : St} (e : tookGame w l p s = .ok s') : Tab s s' := by
  obtain ⟨x, e1, e⟩ := bind_ok e
  exact .via (patchInit_tab e) ((freeCached_tab _ e1).trans (.same rfl rfl rfl))

theorem requestConfig_tab {w : World} {h : Beh} (hg : GoodT h) {name : List Byte} {s : St} {r : St × Nat} (e : requestConfig w h name s = .ok r) : Tab s r.1 := by
  obtain ⟨x, e1, e⟩ := bind_ok e
  have h1 : Tab s x.1 := Tab.via (detectInfo_tab hg e1) (Tab.same rfl rfl rfl)
  split at e
  · cases e; exact h1
  · obtain ⟨y, e2, e⟩ := bind_ok e
    have h2 := search_tab hg 10 e2
    split at e
    · cases e; exact h1.trans h2
    · obtain ⟨z, e3, e⟩ := bind_ok e
      cases e
      exact (h1.trans h2).trans (tookConfig_tab e3)

theorem requestGame_tab {w : World} {h : Beh} (hg : GoodT h) {name : List Byte} {s : St} {r : St × Nat} (e : requestGame w h name s = .ok r) : Tab s r.1 := by
  obtain ⟨x, e1, e⟩ := bind_ok e
  have h1 := detectInfo_tab hg e1
  split at e
  · cases e; exact h1
  · obtain ⟨y, e2, e⟩ := bind_ok e
    have h2 := search_tab hg 10 e2
    split at e
    · cases e; exact h1.trans h2
    · obtain ⟨z, e3, e⟩ := bind_ok e
      cases e
      exact (h1.trans h2).trans (tookGame_tab e3)

theorem askGame_tab {h : Beh} (hg : GoodT h) {name : List Byte} {s : St} {r : St × Nat} (e : askGame h name s = .ok r) : Tab s r.1 := by
  unfold askGame at e
  split at e
  · cases e
  · obtain ⟨x, e1, e⟩ := bind_ok e
    cases e
    exact extIn_tab hg e1

theorem requestS2_tab {w : World} {h : Beh} (hg : GoodT h) {name : List Byte} {s : St} {r : St × Nat} (e : requestS2 w h name s = .ok r) : Tab s r.1 := by
  obtain ⟨x, e1, e⟩ := bind_ok e
  obtain ⟨y, e2, e⟩ := bind_ok e
  cases e
  exact .via (patchInit_tab e2) ((askGame_tab hg e1).trans (.same rfl rfl rfl))

theorem gameDllRequest_tab {w : World} {h : Beh} (hg : GoodT h) {name : List Byte} {s : St} {r : St × Nat} (e : gameDllRequest w h name s = .ok r) : Tab s r.1 := by
  unfold gameDllRequest at e
  split at e
  · cases e; exact .refl _
  split at e
  · exact requestConfig_tab hg e
  split at e
  · exact requestS2_tab hg e
  split at e
  · exact requestGame_tab hg e
  split at e
  · exact askGame_tab hg e
  · cases e; exact .refl _

theorem createInterface_tab {w : World} {h : Beh} (hg : GoodT h) {name : List Byte} {s : St} {r : St × Ptr × Int} (e : createInterface w h name s = .ok r) : Tab s r.1 := by
  unfold createInterface at e
  split at e
  · cases e; exact .refl _
  split at e
  · cases e
    unfold getVspCallbacks
    dsimp only
    split
    · exact .refl _
    split
    · exact .refl _
    · exact .via note_tab (.same rfl rfl rfl)
  split at e
  · obtain ⟨x, e1, e⟩ := bind_ok e
    cases e
    exact gameDllRequest_tab hg e1
  · obtain ⟨x, e1, e⟩ := bind_ok e
    cases e
    exact extIn_tab hg e1

theorem dropCore_tab {s : St} {r : St × Bool} (e : dropCore s = .ok r) : Tab s r.1 := by
  unfold dropCore at e
  split at e
  · cases e; exact .refl _
  · obtain ⟨x, e1, e⟩ := bind_ok e
    cases e
    exact unloadCore_tab e1

theorem vspAttach_tab {h : Beh} (hg : GoodT h) {s : St} {r : St × Bool} (e : vspAttach h s = .ok r) : Tab s r.1 := by
  obtain ⟨x, e1, e⟩ := bind_ok e
  have h1 := coreSym_tab hg e1
  split at e
  · exact h1.trans (dropCore_tab e)
  · dsimp only at e
    split at e
    · cases e
    · obtain ⟨y, e2, e⟩ := bind_ok e
      have h2 : Tab s y.1 := .via (extIn_tab hg e2) (h1.trans (.same rfl rfl rfl))
      split at e
      · exact .via (dropCore_tab e) (h2.trans (.same rfl rfl rfl))
      · cases e; exact h2

theorem vspEngine_tab {h : Beh} (hg : GoodT h) {s x : St} (e : vspEngine h s = .ok x) : Tab s x := by
  unfold vspEngine at e
  split at e
  · cases e; exact .refl _
  · exact findEngine_tab hg e

theorem vspCore_tab {h : Beh} (hg : GoodT h) {s : St} {r : St × Bool} (e : vspCore h s = .ok r) : Tab s r.1 := by
  unfold vspCore at e
  split at e
  · cases e; exact .refl _
  · exact loadCore_tab hg e

theorem used_loading (s : St) : used ({ s with allowed := false }.note .loading).log = used s.log + 1 := by
  simp [St.note, used]

/-- A `Load`: refused, or given up because the engine is unknown, or the table is adapted once to the engine found. -/
theorem vspLoad_cases {h : Beh} (hg : GoodT h) {s : St} {r : St × Bool} (e : vspLoad h s = .ok r) :
    (s.allowed = false ∧ r = (s, false)) ∨
    ∃ x, vspEngine h ({ s with allowed := false }.note .loading) = .ok x ∧
      ((x.backend = 28 ∧ r = (x, false)) ∨ (x.backend ≠ 28 ∧ Tab { x with vtab := adapt x.backend x.vtab } r.1)) := by
  unfold vspLoad at e
  split at e
  · next ha => cases e; exact .inl ⟨ha, rfl⟩
  · obtain ⟨x, e1, e⟩ := bind_ok e
    refine .inr ⟨x, e1, ?_⟩
    split at e
    · next hb => cases e; exact .inl ⟨hb, rfl⟩
    · next hb =>
      obtain ⟨y, e2, e⟩ := bind_ok e
      refine .inr ⟨hb, ?_⟩
      have h2 := vspCore_tab hg e2
      split at e
      · cases e; exact h2
      · exact h2.trans (vspAttach_tab hg e)

theorem vspLoad_tab {h : Beh} (hg : GoodT h) {s : St} {r : St × Bool} (e : vspLoad h s = .ok r) : Tab s r.1 := by
  rcases vspLoad_cases hg e with ⟨_, rfl⟩ | ⟨x, e1, hx⟩
  · exact .refl _
  · intro i
    obtain ⟨h1, bs, h2, h3, h4⟩ := vspEngine_tab hg e1 i
    rw [used_loading] at h3
    have h2' : x.vtab = bs.foldl (fun t b => adapt b t) s.vtab := h2
    rcases hx with ⟨_, rfl⟩ | ⟨hb, ht⟩
    · exact ⟨h1, bs, h2, by show used s.log + bs.length ≤ used x.log; omega, h4⟩
    · obtain ⟨g1, cs, g2, g3, g4⟩ := ht h1
      refine ⟨g1, bs ++ x.backend :: cs, ?_, ?_, ?_⟩
      · rw [g2, List.foldl_append, List.foldl_cons, ← h2']
      · have : used x.log + cs.length ≤ used r.1.log := g3
        rw [List.length_append, List.length_cons]
        omega
      · intro b hm
        rcases List.mem_append.1 hm with hm | hm
        · exact h4 b hm
        · rcases List.mem_cons.1 hm with rfl | hm
          · have : x.backend ≤ 28 := h1
            omega
          · exact g4 b hm

theorem vspUnload_tab {h : Beh} (hg : GoodT h) {s s' : St} (e : vspUnload h s = .ok s') : Tab s s' := by
  unfold vspUnload at e
  split at e
  · cases e; exact .refl _
  · obtain ⟨x, e1, e⟩ := bind_ok e
    have h1 := extIn_tab hg e1
    split at e
    · cases e; exact h1
    · exact h1.trans (unloadCore_tab e)

theorem run_tab {w : World} {fuel : Nat} {h : Beh} (hg : GoodT h) {o : Op} {s : St} {r : St × Nat} (e : run w fuel h o s = .ok r) : Tab s r.1 := by
  cases o with
  | create name =>
    obtain ⟨x, e1, e⟩ := bind_ok e
    cases e
    exact createInterface_tab hg e1
  | slot o k => exact invoke_tab hg _ _ _ _ e
  | load =>
    obtain ⟨x, e1, e⟩ := bind_ok e
    cases e
    exact vspLoad_tab hg e1
  | unload =>
    obtain ⟨x, e1, e⟩ := bind_ok e
    cases e
    exact vspUnload_tab hg e1

theorem exec_tab {w : World} {fuel : Nat} (p : Scr) : ∀ {s : St} {r : St × Nat × Int}, exec w fuel p s = .ok r → Tab s r.1 := by
  induction p with
  | ret v c => intro s r e; cases e; exact .refl _
  | op o cb nx ihc ihn =>
    intro s r e
    obtain ⟨x, e1, e⟩ := bind_ok e
    refine (run_tab (fun c n s s' a e => ?_) e1).trans (ihn _ e)
    exact ihc c n (r := (s', a)) e

/-- External code that is any program. -/
theorem scripts_good (w : World) (fuel : Nat) (cb : Call → Nat → Scr) : GoodT (fun c n s => exec w fuel (cb c n) s) :=
  fun c n _ s' a e => exec_tab (cb c n) (r := (s', a)) e

end Verif.Loader
