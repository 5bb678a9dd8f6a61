import Verif.Core.QueryProps
/-
C48: the server plugin (VSP) listener.  C56: the first load of plugins.
-/
namespace Verif.Core

open Verif.Mgr (Fault R Byte valueAt_mid nextAfter_mid)

/-! ### The `plugin_load` command -/

/-- How often the command was sent. -/
def sent (s : St) : Nat := s.log.countP (· == .call .command)

theorem sent_note (s : St) (e : Ev) : sent (s.note e) = sent s + if e = .call .command then 1 else 0 := by
  simp only [sent, St.note, List.countP_append, List.countP_cons, List.countP_nil]
  by_cases h : e = .call .command <;> simp [h]

/-- Operations that neither enable nor initialise. -/
def Mute (o : Op) : Prop := o ≠ .enable ∧ o ≠ .gameInit ∧ ∀ k, o ≠ .start k

/-- What such operations keep. -/
def MuteRel (s s' : St) : Prop :=
  s'.isInit = s.isInit ∧ s'.requested = s.requested ∧ sent s' = sent s ∧ (s.bridged = true → s'.bridged = true)

theorem muteRel_pre : Pre MuteRel (fun e => e ≠ .call .command) :=
  ⟨fun _ => ⟨rfl, rfl, rfl, id⟩, fun h g => ⟨g.1.trans h.1, g.2.1.trans h.2.1, g.2.2.1.trans h.2.2.1, g.2.2.2 ∘ h.2.2.2⟩,
    fun he => ⟨rfl, rfl, by rw [sent_note, if_neg he]; rfl, id⟩⟩

theorem mute_calls {o : Op} (h : Mute o) {c : Call} (hc : Calls o c) : c ≠ .command := by
  obtain ⟨h1, h2, h3⟩ := h
  rintro rfl
  cases o with
  | enable => exact h1 rfl
  | gameInit => exact h2 rfl
  | start k => exact h3 k rfl
  | query => rcases hc with ⟨_, h⟩ | h <;> cases h
  | metaFactory => obtain ⟨_, _, h⟩ := hc; cases h
  | levelInit => obtain ⟨_, h⟩ := hc; cases h
  | levelShutdown => rcases hc with h | h | ⟨_, h⟩ <;> cases h
  | notify => obtain ⟨_, h⟩ := hc; cases h
  | _ => exact hc

theorem mute_prim {o : Op} (ho : Mute o) {s s' : St} (h : Prim o s s') : MuteRel s s' := by
  obtain ⟨h1, h2, h3⟩ := ho
  cases h with
  | requested => exact absurd rfl h1
  | isInit => exact absurd rfl h2
  | loaded => exact absurd rfl h2
  | «begin» | info' | bridge' | bridged | again => exact absurd rfl (h3 _)
  | bridge => exact ⟨rfl, rfl, rfl, fun _ => rfl⟩
  | _ => exact ⟨rfl, rfl, rfl, id⟩

theorem exec_mute {fuel : Nat} {p : Scr} (hp : Only Mute p) {s : St} {r : St × Reply} (e : exec fuel p s = .ok r) : MuteRel s r.1 :=
  exec_only muteRel_pre.refl muteRel_pre.trans (fun o h s r ho hh e => run_rel muteRel_pre (fun c _ => hh c) (fun c hc => by simp [mute_calls ho hc])
    (fun _ _ _ => by simp) (fun _ _ => mute_prim ho) e) hp e

/-- Programs for which the server command does not, before it returns, enable the listener or report the start of a game again
(the engine queues commands), and which do not start the core again. -/
inductive Polite : Scr → Prop
  | ret (r : Reply) : Polite (.ret r)
  | op {o : Op} {cb : Call → Nat → Scr} {nx : Reply → Scr} (ho : ∀ k, o ≠ .start k) (hm : ∀ n, Only Mute (cb .command n)) (hc : ∀ c n, c ≠ .command → Polite (cb c n))
      (hn : ∀ r, Polite (nx r)) : Polite (.op o cb nx)

/-- At most one command; none before it is requested and the game has started; one as soon as both hold without a bridge. -/
structure CInv (s : St) : Prop where
  most : sent s ≤ 1
  why : sent s = 1 → s.requested = true ∧ (s.isInit = true ∨ s.bridged = true)
  done : s.isInit = true → s.requested = true → s.bridged = false → sent s = 1

def CRel (s s' : St) : Prop := CInv s → CInv s' ∧ (s.bridged = true → s'.bridged = true) ∧ (s.requested = true → s'.requested = true) ∧ (s.isInit = true → s'.isInit = true)

theorem CInv.of {s s' : St} (i : CInv s) (h1 : sent s' = sent s) (h2 : s'.requested = s.requested) (h3 : s'.isInit = s.isInit) (h4 : s'.bridged = s.bridged) : CInv s' :=
  ⟨by rw [h1]; exact i.most, by rw [h1, h2, h3, h4]; exact i.why, by rw [h1, h2, h3, h4]; exact i.done⟩

theorem cRel_same {s s' : St} (h1 : sent s' = sent s) (h2 : s'.requested = s.requested) (h3 : s'.isInit = s.isInit) (h4 : s'.bridged = s.bridged) : CRel s s' :=
  fun i => ⟨i.of h1 h2 h3 h4, by rw [h4]; exact id, by rw [h2]; exact id, by rw [h3]; exact id⟩

theorem cRel_pre : Pre CRel (fun e => e ≠ .call .command) :=
  ⟨fun _ => cRel_same rfl rfl rfl rfl, fun h g i => ⟨(g (h i).1).1, (g (h i).1).2.1 ∘ (h i).2.1, (g (h i).1).2.2.1 ∘ (h i).2.2.1, (g (h i).1).2.2.2 ∘ (h i).2.2.2⟩,
    fun he => cRel_same (by rw [sent_note, if_neg he]; rfl) rfl rfl rfl⟩

theorem command_mute {h : Beh} (hm : At MuteRel h .command) {s : St} {r : St × Reply} (e : doCall h .command s = .ok r) :
    sent r.1 = sent s + 1 ∧ r.1.isInit = s.isInit ∧ r.1.requested = s.requested ∧ (s.bridged = true → r.1.bridged = true) := by
  obtain ⟨x, e1, e⟩ := bind_ok e
  cases e
  obtain ⟨h1, h2, h3, h4⟩ := hm _ _ _ _ e1
  refine ⟨?_, h1, h2, h4⟩
  show sent (x.1.note _) = _
  rw [sent_note, h3, sent_note]
  simp

/-- `initializeIf` with its condition. -/
theorem initializeIf_sent {h : Beh} (hm : At MuteRel h .command) {b : Bool} {s s' : St} (e : initializeIf h b s = .ok s') :
    sent s' = sent s + (if b = true ∧ s.bridged = false then 1 else 0) ∧ s'.isInit = s.isInit ∧ s'.requested = s.requested ∧ (s.bridged = true → s'.bridged = true) := by
  unfold initializeIf initializeVsp at e
  split at e
  · rename_i hb
    split at e
    · rename_i hs
      cases e
      exact ⟨by simp [hs], rfl, rfl, id⟩
    · rename_i hs
      obtain ⟨x, e1, e⟩ := bind_ok e
      cases e
      obtain ⟨h1, h2⟩ := command_mute hm e1
      exact ⟨by rw [h1, if_pos ⟨hb, by simpa using hs⟩], h2⟩
  · rename_i hb
    cases e
    exact ⟨by simp [hb], rfl, rfl, id⟩

theorem enable_c {h : Beh} (hm : At MuteRel h .command) {s s' : St} (e : enable h s = .ok s') : CRel s s' := by
  obtain ⟨x, e1, e⟩ := bind_ok e
  cases e
  obtain ⟨h1, h2, h3, h4⟩ := initializeIf_sent hm e1
  intro i
  refine ⟨⟨?_, ?_, ?_⟩, h4, fun _ => rfl, fun h => by show x.isInit = true; rw [h2]; exact h⟩
  · show sent x ≤ 1
    rw [h1]
    split
    · rename_i hc
      have : sent s ≠ 1 := fun h => by have := (i.why h).1; simp_all
      have := i.most
      omega
    · exact i.most
  · show sent x = 1 → true = true ∧ (x.isInit = true ∨ x.bridged = true)
    intro hx
    refine ⟨rfl, ?_⟩
    rw [h1] at hx
    split at hx
    · rename_i hc
      refine .inl ?_
      rw [h2]
      simp_all
    · rcases (i.why hx).2 with h | h
      · exact .inl (h2.trans h)
      · exact .inr (h4 h)
  · show x.isInit = true → true = true → x.bridged = false → sent x = 1
    intro hi _ hb
    rw [h2] at hi
    have hb' : s.bridged = false := by
      cases hs : s.bridged
      · rfl
      · rw [h4 hs] at hb; cases hb
    rw [h1]
    cases hr : s.requested
    · have : sent s ≠ 1 := fun h => by have := (i.why h).1; simp_all
      have := i.most
      rw [if_pos ⟨by simp [hi], hb'⟩]
      omega
    · simp [i.done hi hr hb']

theorem gameInit_c {h : Beh} (hm : At MuteRel h .command) (hc : At CRel h .initialLoad) {s s' : St} (e : gameInit h s = .ok s') : CRel s s' := by
  unfold gameInit at e
  split at e
  · cases e; exact cRel_pre.refl _
  · rename_i h0
    have h0 : s.isInit = false := by simpa using h0
    obtain ⟨x, e1, e⟩ := bind_ok e
    obtain ⟨y, e2, e⟩ := bind_ok e
    cases e
    obtain ⟨h1, h2, h3, h4⟩ := initializeIf_sent hm e1
    intro i
    have hx : sent x ≤ 1 ∧ (sent x = 1 → x.requested = true) ∧ (x.requested = true → x.bridged = false → sent x = 1) := by
      refine ⟨?_, ?_, ?_⟩
      · rw [h1]
        split
        · rename_i hc
          have : sent s ≠ 1 := fun h => by have := (i.why h).2; simp_all
          have := i.most
          omega
        · exact i.most
      · intro hx
        rw [h3]
        rw [h1] at hx
        split at hx
        · rename_i hc; exact hc.1
        · exact (i.why hx).1
      · intro hr hb
        rw [h3] at hr
        have hb' : s.bridged = false := by
          cases hs : s.bridged
          · rfl
          · rw [h4 hs] at hb; cases hb
        have : sent s ≠ 1 := fun h => by have := (i.why h).2; simp_all
        have := i.most
        rw [h1, if_pos ⟨hr, hb'⟩]
        omega
    unfold firstLoadIf at e2
    split at e2
    · rename_i hb
      have hb : x.bridged = true := by
        cases hb' : x.bridged
        · rw [hb'] at hb; cases hb
        · rfl
      obtain ⟨z, e3, e2⟩ := bind_ok e2
      cases e2
      have ix : CInv x := ⟨hx.1, fun h => ⟨hx.2.1 h, .inr hb⟩, fun _ _ h => by rw [hb] at h; cases h⟩
      obtain ⟨iz, g1, g2, g3⟩ := doCall_rel cRel_pre hc (by simp) (by simp) e3 ix
      refine ⟨⟨iz.most, fun h => ⟨(iz.why h).1, .inl rfl⟩, fun _ hr hb' => ?_⟩, fun h => g1 (h4 h), fun h => g2 (h3.trans h), fun _ => rfl⟩
      have : z.1.bridged = true := g1 hb
      exact absurd hb' (by simp [this])
    · cases e2
      exact ⟨⟨hx.1, fun h => ⟨hx.2.1 h, .inl rfl⟩, fun _ hr hb => hx.2.2 hr hb⟩, h4, fun h => h3.trans h, fun _ => rfl⟩

theorem other_prim {o : Op} (ho : Mute o) {s s' : St} (h : Prim o s s') : CRel s s' := by
  obtain ⟨h1, h2, h3⟩ := ho
  cases h with
  | requested => exact absurd rfl h1
  | isInit => exact absurd rfl h2
  | loaded => exact absurd rfl h2
  | «begin» | info' | bridge' | bridged | again => exact absurd rfl (h3 _)
  | bridge =>
    exact fun i => ⟨⟨i.most, fun h => ⟨(i.why h).1, .inr rfl⟩, fun _ _ h => nomatch h⟩, fun _ => rfl, id, id⟩
  | _ => exact cRel_same rfl rfl rfl rfl

theorem run_c {fuel : Nat} {h : Beh} {o : Op} (ho : ∀ k, o ≠ .start k) (hm : At MuteRel h .command) (hc : ∀ c, c ≠ .command → At CRel h c) {s : St} {r : St × Reply}
    (e : run fuel h o s = .ok r) : CRel s r.1 := by
  by_cases h1 : o = .enable
  · subst h1
    obtain ⟨x, e1, e⟩ := bind_ok e
    cases e
    exact enable_c hm e1
  · by_cases h2 : o = .gameInit
    · subst h2
      obtain ⟨x, e1, e⟩ := bind_ok e
      cases e
      exact gameInit_c hm (hc _ (by simp)) e1
    · have hmo : Mute o := ⟨h1, h2, ho⟩
      exact run_rel cRel_pre (fun c hcc => hc c (mute_calls hmo hcc)) (fun c hcc => by simp [mute_calls hmo hcc]) (fun _ _ _ => by simp) (fun _ _ => other_prim hmo) e

theorem exec_polite {fuel : Nat} {p : Scr} (hp : Polite p) : ∀ {s : St} {r : St × Reply}, exec fuel p s = .ok r → CRel s r.1 := by
  induction hp with
  | ret => intro s r e; cases e; exact cRel_pre.refl _
  | op ho hm hc hn ihc ihn =>
    intro s r e
    obtain ⟨x, e1, e⟩ := bind_ok e
    exact cRel_pre.trans (run_c ho (fun n s s' a e => exec_mute (hm n) e) (fun c hne n s s' a e => ihc c n hne e) e1) (ihn _ e)

/-- A whole run of the core: the start in one of the two modes, then anything polite. -/
structure Program (fuel : Nat) (k : Start) (s : St) : Prop where
  ex : ∃ (cb : Call → Nat → Scr) (nx : Reply → Scr) (a : Reply), (∀ n, Only Mute (cb .command n)) ∧ (∀ c n, c ≠ .command → Polite (cb c n)) ∧ (∀ r, Polite (nx r)) ∧
    exec fuel (.op (.start k) cb nx) init = .ok (s, a)

theorem start_vsp_init {fuel : Nat} {h : Beh} {cbs : Nat} {v : Int} : run fuel h (.start (.vsp cbs v)) init =
    .ok ({ init with version := if v ≠ -1 then v else 0, cbs := cbs, bridged := true }, 0, none) := by
  cases fuel <;> rfl

theorem Program.inv {fuel : Nat} {k : Start} {s : St} (h : Program fuel k s) : CInv s := by
  obtain ⟨cb, nx, a, hm, hc, hn, e⟩ := h.ex
  obtain ⟨x, e1, e⟩ := bind_ok e
  have i0 : ∀ {s : St}, sent s = 0 → s.isInit = false → CInv s := fun h g => ⟨by omega, fun h' => by omega, fun h' => by rw [g] at h'; cases h'⟩
  have ix : CInv x.1 := by
    cases k with
    | vsp c v =>
      rw [start_vsp_init] at e1
      cases e1
      exact i0 rfl rfl
    | gamedll =>
      obtain ⟨y, e2, e1⟩ := bind_ok e1
      cases e1
      obtain ⟨z, e3, e2⟩ := bind_ok e2
      cases e2
      have := (doCall_rel cRel_pre (fun n s s' a e => exec_polite (hc .initialLoad n (by simp)) e) (by simp) (by simp) e3 (i0 rfl rfl)).1
      exact this.of rfl rfl rfl rfl
  exact (exec_polite (hn _) e ix).1

/-- C48: in a run of the core the `plugin_load` command is sent at most once. -/
theorem command_at_most_once {fuel : Nat} {k : Start} {s : St} (h : Program fuel k s) : sent s ≤ 1 := h.inv.most

/-- C48: it is sent only if some plugin asked for it. -/
theorem command_requested {fuel : Nat} {k : Start} {s : St} (h : Program fuel k s) (h1 : sent s ≠ 0) : s.requested = true :=
  (h.inv.why (by have := h.inv.most; omega)).1

/-- C48: it has been sent as soon as it was asked for and the game has started, if the server plugin is not there. -/
theorem command_sent {fuel : Nat} {k : Start} {s : St} (h : Program fuel k s) (h1 : s.isInit = true) (h2 : s.requested = true) (h3 : s.bridged = false) : sent s = 1 :=
  h.inv.done h1 h2 h3

/-- C48: asking again has no effect. -/
theorem enable_idempotent {h : Beh} {s : St} (hr : s.requested = true) : enable h s = .ok s := by
  unfold enable
  rw [hr]
  simp only [Bool.not_true, Bool.and_false, initializeIf, bind, Except.bind]
  cases s
  simp_all

/-- Operations one after the other, with external code that does nothing. -/
def ops : List Op → Scr
  | [] => .ret (0, none)
  | o :: os => .op o (fun _ _ => .ret (0, none)) fun _ => ops os

def resSt {α : Type} (f : St → α) : R (St × Reply) → Option α
  | .ok r => some (f r.1)
  | .error _ => none

theorem ops_polite : ∀ {l : List Op}, (∀ o ∈ l, ∀ k, o ≠ .start k) → Polite (ops l)
  | [], _ => .ret _
  | o :: os, h => .op (h o (List.mem_cons_self ..)) (fun _ => .ret _) (fun _ _ _ => .ret _) fun _ => ops_polite fun o ho => h o (List.mem_cons_of_mem _ ho)

theorem Program.ops {fuel : Nat} {k : Start} {l : List Op} (h : ∀ o ∈ l, ∀ k, o ≠ .start k) {s : St} {a : Reply} (e : exec fuel (ops (.start k :: l)) init = .ok (s, a)) : Program fuel k s :=
  ⟨_, _, a, fun _ => .ret _, fun _ _ _ => .ret _, fun _ => ops_polite h, e⟩

/-- The examples of this part: enabled twice before and after the start of the game. -/
example : ∃ s, Program 3 .gamedll s ∧ s.isInit = true ∧ s.requested = true ∧ s.bridged = false ∧ sent s = 1 :=
  ⟨_, Program.ops (l := [.enable, .enable, .gameInit, .enable, .gameInit]) (by simp) rfl, rfl, rfl, rfl, rfl⟩

/-- C48 needs a server command that does not enable the listener before it returns: `vsp_load_requested` is written after the
command (core/metamod.cpp:803-808). -/
theorem enable_nested_twice : resSt sent (exec 3 (.op (.start .gamedll) (fun _ _ => .ret (0, none)) fun _ => .op .gameInit (fun _ _ => .ret (0, none)) fun _ =>
    .op .enable (fun c n => if c = .command ∧ n = 2 then .op .enable (fun _ _ => .ret (0, none)) fun _ => .ret (0, none) else .ret (0, none)) fun _ => .ret (0, none)) init) = some 2 := by
  decide +kernel

/-! ### Who is told -/

def told? : Ev → Option (Nat × Nat)
  | .call (.listening l cbs) => some (l, cbs)
  | _ => none

/-- The calls of `OnVSPListening`: listener and pointer. -/
def tellings (s : St) : List (Nat × Nat) := s.log.filterMap told?

theorem tellings_note (s : St) (e : Ev) : tellings (s.note e) = tellings s ++ (told? e).toList := by
  simp only [tellings, St.note, List.filterMap_append]
  cases h : told? e <;> simp [h]

/-- Operations other than `NotifyVSPListening`. -/
def NoNotify (o : Op) : Prop := (∀ c v, o ≠ .notify c v) ∧ ∀ c v, o ≠ .start (.vsp c v)

def ToldRel (s s' : St) : Prop := tellings s' = tellings s ∧ vspInfo s' = vspInfo s

theorem toldRel_pre : Pre ToldRel (fun e => told? e = none) :=
  ⟨fun _ => ⟨rfl, rfl⟩, fun h g => ⟨g.1.trans h.1, g.2.trans h.2⟩, fun he => ⟨by rw [tellings_note, he]; simp, rfl⟩⟩

theorem noNotify_calls {o : Op} (h : NoNotify o) {c : Call} (hc : Calls o c) : told? (.call c) = none := by
  obtain ⟨h1, h2⟩ := h
  cases o with
  | enable => cases hc; rfl
  | gameInit => rcases hc with h | h <;> cases h <;> rfl
  | start k =>
    cases k with
    | gamedll => cases hc; rfl
    | vsp c v => exact absurd rfl (h2 c v)
  | query => rcases hc with ⟨_, h⟩ | h <;> cases h <;> rfl
  | metaFactory => obtain ⟨_, _, h⟩ := hc; cases h; rfl
  | levelInit => obtain ⟨_, h⟩ := hc; cases h; rfl
  | levelShutdown => rcases hc with h | h | ⟨_, h⟩ <;> cases h <;> rfl
  | notify c v => exact absurd rfl (h1 c v)
  | _ => exact nomatch hc

theorem noNotify_prim {o : Op} (ho : NoNotify o) {s s' : St} (h : Prim o s s') : ToldRel s s' := by
  obtain ⟨h1, h2⟩ := ho
  cases h with
  | info | bridge => exact absurd rfl (h1 _ _)
  | info' | bridge' => exact absurd rfl (h2 _ _)
  | _ => exact ⟨rfl, rfl⟩

/-- C48: nothing but the notification tells listeners or changes what `GetVSPInfo` answers, in particular not `EnableVSPListener`. -/
theorem only_notify_tells {fuel : Nat} {p : Scr} (hp : Only NoNotify p) {s s' : St} {a : Reply} (e : exec fuel p s = .ok (s', a)) :
    tellings s' = tellings s ∧ vspInfo s' = vspInfo s :=
  exec_only toldRel_pre.refl toldRel_pre.trans (fun o h s r ho hh e => run_rel toldRel_pre (fun c _ => hh c) (fun c hc => noNotify_calls ho hc)
    (fun _ _ _ => rfl) (fun _ _ => noNotify_prim ho) e) hp e

/-- External code that leaves the lists alone and does not notify. -/
def Still (s s' : St) : Prop := SameLists s s' ∧ ToldRel s s'

theorem tell_one {h : Beh} (hh : ∀ c, At Still h c) {l cbs : Nat} {s : St} {r : St × Reply} (e : doCall h (.listening l cbs) s = .ok r) :
    r.1.plugs = s.plugs ∧ tellings r.1 = tellings s ++ [(l, cbs)] ∧ vspInfo r.1 = vspInfo s := by
  obtain ⟨x, e1, e⟩ := bind_ok e
  cases e
  obtain ⟨h1, h2, h3⟩ := hh _ _ _ _ _ e1
  refine ⟨h1, ?_, h3⟩
  show tellings (x.1.note _) = _
  rw [tellings_note, h2, tellings_note]
  exact List.append_nil _

theorem evLoop_tell {h : Beh} (hh : ∀ c, At Still h c) {cbs : Nat} {pa pb : List Plug} {p : Plug} (hp : p.oid ∉ pa.map Plug.oid) (hn : (p.events.map Prod.fst).Nodup)
    (evs : List (Nat × Nat)) : ∀ {f : Nat} {ea : List (Nat × Nat)} {s : St} {t : Trace} {r : St × Trace}, p.events = ea ++ evs → s.plugs = pa ++ p :: pb →
    evLoop h (fun l => .listening l cbs) p.oid f (evs.head?.map Prod.fst) s t = .ok r →
      r.1.plugs = s.plugs ∧ tellings r.1 = tellings s ++ evs.map (fun e => (e.2, cbs)) ∧ vspInfo r.1 = vspInfo s := by
  induction evs with
  | nil =>
    intro f ea s t r he hs e
    cases f <;> (cases e; simp)
  | cons ev evs ih =>
    intro f ea s t r he hs e
    cases f with
    | zero => cases e
    | succ f =>
      obtain ⟨q, e0, e⟩ := bind_ok e
      rw [get_mid hs hp] at e0
      cases e0
      obtain ⟨l, e0, e⟩ := bind_ok e
      have hne : ev.1 ∉ ea.map Prod.fst := by
        rw [he, List.map_append] at hn
        exact nodup_mid hn
      rw [he, valueAt_mid (v := ev.2) hne] at e0
      cases e0
      obtain ⟨x, e1, e⟩ := bind_ok e
      obtain ⟨hx, hx2, hx3⟩ := tell_one hh e1
      obtain ⟨q, e0, e⟩ := bind_ok e
      rw [get_mid (hx.trans hs) hp] at e0
      cases e0
      obtain ⟨nx, e0, e⟩ := bind_ok e
      rw [he, List.map_append, List.map_cons, nextAfter_mid hne, List.head?_map] at e0
      cases e0
      obtain ⟨g1, g2, g3⟩ := ih (ea := ea ++ [ev]) (by rw [he]; simp) (hx.trans hs) e
      exact ⟨g1.trans hx, by rw [g2, hx2]; simp, g3.trans hx3⟩

theorem evAll_tell {h : Beh} (hh : ∀ c, At Still h c) {cbs fuel : Nat} (pb : List Plug) : ∀ {f : Nat} {pa : List Plug} {s : St} {t : Trace}
    {r : St × Trace}, ((pa ++ pb).map Plug.oid).Nodup → (∀ p ∈ pb, (p.events.map Prod.fst).Nodup) → s.plugs = pa ++ pb →
    evAll h fuel (fun l => .listening l cbs) f (pb.head?.map Plug.oid) s t = .ok r →
      tellings r.1 = tellings s ++ (pb.flatMap fun p => p.events.map Prod.snd).map (fun l => (l, cbs)) ∧ vspInfo r.1 = vspInfo s := by
  induction pb with
  | nil =>
    intro f pa s t r hw hn hs e
    cases f <;> (cases e; simp)
  | cons p pb ih =>
    intro f pa s t r hw hn hs e
    cases f with
    | zero => cases e
    | succ f =>
      have hp : p.oid ∉ pa.map Plug.oid := by
        rw [List.map_append] at hw
        exact nodup_mid hw
      obtain ⟨q, e0, e⟩ := bind_ok e
      rw [get_mid hs hp] at e0
      cases e0
      obtain ⟨x, e1, e⟩ := bind_ok e
      obtain ⟨g1, g2, g3⟩ := evLoop_tell hh hp (hn p (List.mem_cons_self ..)) p.events (ea := []) rfl hs e1
      obtain ⟨nx, e0, e⟩ := bind_ok e
      rw [g1, hs, List.map_append, List.map_cons, nextAfter_mid hp, List.head?_map] at e0
      cases e0
      obtain ⟨k1, k2⟩ := ih (pa := pa ++ [p]) (by simpa using hw) (fun q hq => hn q (List.mem_cons_of_mem _ hq)) (by rw [g1, hs]; simp) e
      exact ⟨by rw [k1, g2]; simp [List.map_map, Function.comp_def], k2.trans g3⟩

/-- C48: a notification tells every listener there is, in order, each as often as it was added, with the pointer; from then on
`GetVSPInfo` gives this pointer and the version (-1: the version known before).  For listeners that leave the lists alone and do not notify. -/
theorem notify_tells {h : Beh} (hh : ∀ c, At Still h c) {fuel cbs : Nat} {v : Int} {s s' : St} (hs : Reach s) {t : Trace} (e : notify h fuel cbs v s = .ok (s', t)) :
    tellings s' = tellings s ++ (listeners s).map (fun l => (l, cbs)) ∧ vspInfo s' = (cbs, if v = -1 then s.version else v) := by
  obtain ⟨x, e1, e⟩ := bind_ok e
  unfold iterEvent at e1
  obtain ⟨h1, h2⟩ := evAll_tell hh (cbs := cbs) (s := { s with version := _, cbs := _ }) s.plugs (pa := []) hs.wf.oids hs.wf.nodes rfl e1
  have h2 : vspInfo x.1 = (cbs, if v ≠ -1 then v else s.version) := h2
  cases e
  refine ⟨?_, ?_⟩
  · dsimp only
    split
    · exact h1
    · exact h1
  · have : vspInfo x.1 = (cbs, if v = -1 then s.version else v) := by
      rw [h2]
      by_cases hv : v = -1 <;> simp [hv]
    dsimp only
    split <;> exact this

/-- C48, whole run with one notification: before it `p`, after it `q`, both without further notifications but otherwise arbitrary.
Exactly the listeners at the time of the notification were told, once, in order; a listener added later was not told, however
often it enabled the listener, but can get the pointer by `GetVSPInfo`. -/
theorem told_exactly_once {h : Beh} (hh : ∀ c, At Still h c) {fuel cbs : Nat} {v : Int} {p q : Scr} (hp : Only NoNotify p) (hq : Only NoNotify q) {s s1 s2 : St} {a b : Reply}
    {t : Trace} (e1 : exec fuel p init = .ok (s, a)) (e2 : notify h fuel cbs v s = .ok (s1, t)) (e3 : exec fuel q s1 = .ok (s2, b)) :
    tellings s2 = (listeners s).map (fun l => (l, cbs)) ∧ (vspInfo s2).1 = cbs := by
  obtain ⟨h1, _⟩ := only_notify_tells hp e1
  obtain ⟨h2, h3⟩ := notify_tells hh ⟨fuel, p, a, e1⟩ e2
  obtain ⟨h4, h5⟩ := only_notify_tells hq e3
  exact ⟨by rw [h4, h2, h1]; simp [tellings, init], by rw [h5, h3]⟩

/-- C48 fails as documented in core/ISmmAPI.h:307-313 ("each successive call will only give the pointer to plugins which have
not yet received it"): a listener that is not there at the notification is never told by enabling. -/
theorem late_never_told {h : Beh} (hh : ∀ c, At Still h c) {fuel cbs : Nat} {v : Int} {p q : Scr} (hp : Only NoNotify p) (hq : Only NoNotify q) {s s1 s2 : St} {a b : Reply}
    {t : Trace} (e1 : exec fuel p init = .ok (s, a)) (e2 : notify h fuel cbs v s = .ok (s1, t)) (e3 : exec fuel q s1 = .ok (s2, b)) {l : Nat} (hl : l ∉ listeners s) :
    ∀ c, (l, c) ∉ tellings s2 := by
  intro c hc
  rw [(told_exactly_once hh hp hq e1 e2 e3).1] at hc
  obtain ⟨x, hx, hx'⟩ := List.mem_map.1 hc
  cases hx'
  exact hl hx

theorem ops_only {A : Op → Prop} : ∀ {l : List Op}, (∀ o ∈ l, A o) → Only A (ops l)
  | [], _ => .ret _
  | o :: os, h => .op (h o (List.mem_cons_self ..)) (fun _ _ => .ret _) fun _ => ops_only fun o ho => h o (List.mem_cons_of_mem _ ho)

/-- Two listeners before, one after, who enables the listener. -/
example : ∃ s s1 s2 a b t, Only NoNotify (ops [.start .gamedll, .addPlugin 4, .addListener 0 10, .addListener 0 11, .enable, .gameInit]) ∧
    Only NoNotify (ops [.addPlugin 5, .addListener 3 12, .enable]) ∧
    exec 3 (ops [.start .gamedll, .addPlugin 4, .addListener 0 10, .addListener 0 11, .enable, .gameInit]) init = .ok (s, a) ∧
    notify (answers fun _ => (0, none)) 3 77 2 s = .ok (s1, t) ∧ exec 3 (ops [.addPlugin 5, .addListener 3 12, .enable]) s1 = .ok (s2, b) ∧
    listeners s = [10, 11] ∧ tellings s2 = [(10, 77), (11, 77)] ∧ listeners s2 = [10, 11, 12] ∧ vspInfo s2 = (77, 2) := by
  refine ⟨_, _, _, _, _, _, ops_only ?_, ops_only ?_, rfl, rfl, rfl, rfl, rfl, rfl, rfl⟩ <;> simp [NoNotify]

example : ∀ c, At Still (answers fun _ => (0, none)) c := fun c n s s' a e => by cases e; exact ⟨rfl, rfl, rfl⟩

/-! ### The first load of plugins (C56) -/

/-- How often the plugins of the configuration were loaded at the start. -/
def loads (s : St) : Nat := s.log.countP (· == .call .initialLoad)

theorem loads_note (s : St) (e : Ev) : loads (s.note e) = loads s + if e = .call .initialLoad then 1 else 0 := by
  simp only [loads, St.note, List.countP_append, List.countP_cons, List.countP_nil]
  by_cases h : e = .call .initialLoad <;> simp [h]

/-- Everything but starting the core again. -/
def NoStart (o : Op) : Prop := ∀ k, o ≠ .start k

/-- What holds with the game DLL loader after the first load. -/
def Loaded (s : St) : Prop := s.gamedll = true ∧ (s.bridged = true → s.loaded = true)

def LoadedRel (s s' : St) : Prop := Loaded s → Loaded s' ∧ loads s' = loads s

theorem loadedRel_pre : Pre LoadedRel (fun e => e ≠ .call .initialLoad) :=
  ⟨fun _ h => ⟨h, rfl⟩, fun h g i => ⟨(g (h i).1).1, (g (h i).1).2.trans (h i).2⟩, fun he i => ⟨i, by rw [loads_note, if_neg he]; rfl⟩⟩

theorem loaded_prim {o : Op} (ho : NoStart o) {s s' : St} (h : Prim o s s') : LoadedRel s s' := by
  intro i
  cases h with
  | «begin» | info' | bridge' | bridged | again => exact absurd rfl (ho _)
  | loaded | loaded' | bridge => exact ⟨⟨i.1, fun _ => rfl⟩, rfl⟩
  | _ => exact ⟨⟨i.1, i.2⟩, rfl⟩

/-- Of the operations only the two below may load. -/
theorem quiet_calls {o : Op} (h0 : NoStart o) (h1 : o ≠ .gameInit) (h2 : o ≠ .levelShutdown) {c : Call} (hc : Calls o c) : c ≠ .initialLoad := by
  rintro rfl
  cases o with
  | enable => cases hc
  | gameInit => exact h1 rfl
  | start k => exact h0 k rfl
  | query => rcases hc with ⟨_, h⟩ | h <;> cases h
  | metaFactory => obtain ⟨_, _, h⟩ := hc; cases h
  | levelInit => obtain ⟨_, h⟩ := hc; cases h
  | levelShutdown => exact h2 rfl
  | notify => obtain ⟨_, h⟩ := hc; cases h
  | _ => exact hc

/-- A condition on the state that all calls keep, with which nothing is loaded. -/
structure Guard (Rel : St → St → Prop) (I : St → Prop) : Prop where
  pre : Pre Rel (fun e => e ≠ .call .initialLoad)
  keep : ∀ {s s' : St}, I s → Rel s s' → I s'
  no : ∀ {s : St}, I s → (s.bridged && !s.loaded) = false

theorem initializeIf_rel {Rel : St → St → Prop} {N : Ev → Prop} (P : Pre Rel N) {h : Beh} (hh : At Rel h .command) (h1 : N (.call .command)) (h2 : ∀ r, N (.ret .command r)) {b : Bool} {s s' : St}
    (e : initializeIf h b s = .ok s') : Rel s s' := by
  unfold initializeIf initializeVsp at e
  split at e
  · split at e
    · cases e; exact P.refl _
    · obtain ⟨x, e1, e⟩ := bind_ok e
      cases e
      exact doCall_rel P hh h1 h2 e1
  · cases e; exact P.refl _

theorem run_guard {Rel : St → St → Prop} {I : St → Prop} (G : Guard Rel I) {fuel : Nat} {h : Beh} {o : Op} (h0 : NoStart o) (hh : ∀ c, At Rel h c)
    (hp : ∀ s s', Prim o s s' → Rel s s') {s : St} {r : St × Reply} (i : I s) (e : run fuel h o s = .ok r) : Rel s r.1 := by
  by_cases h1 : o = .gameInit
  · subst h1
    obtain ⟨x, e1, e⟩ := bind_ok e
    cases e
    unfold gameInit at e1
    split at e1
    · cases e1; exact G.pre.refl _
    · obtain ⟨y, e2, e1⟩ := bind_ok e1
      obtain ⟨z, e3, e1⟩ := bind_ok e1
      cases e1
      have hy := initializeIf_rel G.pre (hh _) (by simp) (by simp) e2
      rw [G.no (G.keep i hy)] at e3
      cases e3
      exact G.pre.trans hy (hp _ _ (.isInit _))
  · by_cases h2 : o = .levelShutdown
    · subst h2
      obtain ⟨x, e1, e⟩ := bind_ok e
      cases e
      obtain ⟨y, e2, e1⟩ := bind_ok e1
      unfold levelFirst at e2
      rw [G.no i] at e2
      cases e2
      obtain ⟨z, e3, e5⟩ := bind_ok e1
      refine G.pre.trans ?_ (iterEvent_rel (c := .levelShutdown) G.pre (fun l => hh _) (by simp) (by simp) e5)
      unfold levelReload at e3
      split at e3
      · cases e3; exact hp _ _ (.first _ _)
      · obtain ⟨w, e4, e3⟩ := bind_ok e3
        cases e3
        exact doCall_rel G.pre (hh _) (by simp) (by simp) e4
    · exact run_rel G.pre (fun c _ => hh c) (fun c hc => by simp [quiet_calls h0 h1 h2 hc]) (fun _ _ _ => by simp) hp e

theorem loadedGuard : Guard (fun s s' => LoadedRel s s' ) Loaded :=
  ⟨loadedRel_pre, fun i r => (r i).1, fun {s} i => by
    cases hb : s.bridged
    · rfl
    · simp [i.2 hb]⟩

theorem exec_loaded {fuel : Nat} {p : Scr} (hp : Only NoStart p) {s : St} {r : St × Reply} (e : exec fuel p s = .ok r) : LoadedRel s r.1 :=
  exec_only loadedRel_pre.refl loadedRel_pre.trans (fun _ _ _ _ ho hh e i => run_guard loadedGuard ho hh (fun _ _ => loaded_prim ho) i e i) hp e

/-- C56: with the game DLL loader the plugins of the configuration are loaded exactly once, at the start, whatever happens then. -/
theorem gamedll_loads_once {fuel : Nat} {cb : Call → Nat → Scr} {nx : Reply → Scr} (hc : ∀ c n, Only NoStart (cb c n)) (hn : ∀ r, Only NoStart (nx r)) {s : St} {a : Reply}
    (e : exec fuel (.op (.start .gamedll) cb nx) init = .ok (s, a)) : loads s = 1 := by
  obtain ⟨x, e1, e⟩ := bind_ok e
  obtain ⟨y, e2, e1⟩ := bind_ok e1
  cases e1
  obtain ⟨z, e3, e2⟩ := bind_ok e2
  cases e2
  obtain ⟨w, e4, e3⟩ := bind_ok e3
  cases e3
  obtain ⟨i, hl⟩ := exec_loaded (hc _ _) e4 ⟨rfl, fun h => nomatch h⟩
  obtain ⟨_, hl'⟩ := exec_loaded (hn _) e ⟨i.1, i.2⟩
  rw [hl']
  show loads (w.1.note _) = 1
  rw [loads_note, hl]
  rfl

example : resSt loads (exec 3 (ops [.start .gamedll, .addPlugin 4, .addListener 0 10, .enable, .gameInit, .notify 77 2, .gameInit, .levelInit, .levelShutdown, .levelShutdown]) init) = some 1 := by
  decide +kernel

/-- Operations that do not load. -/
def NoLoad (o : Op) : Prop := NoStart o ∧ o ≠ .gameInit ∧ o ≠ .levelShutdown

/-- Programs of which the first load itself does not report the start of the game or the end of a level. -/
inductive Calm : Scr → Prop
  | ret (r : Reply) : Calm (.ret r)
  | op {o : Op} {cb : Call → Nat → Scr} {nx : Reply → Scr} (ho : NoStart o) (hm : ∀ n, Only NoLoad (cb .initialLoad n)) (hc : ∀ c n, c ≠ .initialLoad → Calm (cb c n))
      (hn : ∀ r, Calm (nx r)) : Calm (.op o cb nx)

/-- What holds with the server plugin loader. -/
structure VInv (s : St) : Prop where
  mode : s.gamedll = false
  br : s.bridged = true
  num : loads s = if s.loaded then 1 else 0

/-- … and while loading. -/
def VRel (s s' : St) : Prop := s.gamedll = false → s'.gamedll = false ∧ (s.bridged = true → s'.bridged = true) ∧ s'.loaded = s.loaded ∧ loads s' = loads s

def VStep (s s' : St) : Prop := VInv s → VInv s' ∧ (s.loaded = true → s'.loaded = true)

theorem vRel_pre : Pre VRel (fun e => e ≠ .call .initialLoad) :=
  ⟨fun _ h => ⟨h, id, rfl, rfl⟩, fun h g i => ⟨(g (h i).1).1, (g (h i).1).2.1 ∘ (h i).2.1, (g (h i).1).2.2.1.trans (h i).2.2.1, (g (h i).1).2.2.2.trans (h i).2.2.2⟩,
    fun he i => ⟨i, id, rfl, by rw [loads_note, if_neg he]; rfl⟩⟩

theorem vStep_of {s s' : St} (h : VRel s s') : VStep s s' := fun i =>
  have ⟨h1, h2, h3, h4⟩ := h i.mode
  ⟨⟨h1, h2 i.br, by rw [h3, h4]; exact i.num⟩, fun h => h3.trans h⟩

theorem vStep_pre : Pre VStep (fun e => e ≠ .call .initialLoad) :=
  ⟨fun s => vStep_of (vRel_pre.refl s), fun h g i => ⟨(g (h i).1).1, (g (h i).1).2 ∘ (h i).2⟩, fun he => vStep_of (vRel_pre.note he)⟩

/-- `NotifyVSPListening` in this mode sets neither variable. -/
theorem notify_v {h : Beh} {Rel : St → St → Prop} {N : Ev → Prop} (P : Pre Rel N) (hh : ∀ l c, At Rel h (.listening l c)) (h1 : ∀ l c, N (.call (.listening l c))) (h2 : ∀ l c r, N (.ret (.listening l c) r))
    (hi : ∀ s v c, Rel s { s with version := v, cbs := c }) {fuel cbs : Nat} {v : Int}
    {s : St} (hm : ∀ {s' : St}, Rel s s' → s'.gamedll = false) {r : St × Trace} (e : notify h fuel cbs v s = .ok r) : Rel s r.1 := by
  obtain ⟨x, e1, e⟩ := bind_ok e
  have hx := P.trans (hi s _ _) (iterEvent_rel P (fun l => hh l _) (fun l => h1 l _) (fun l _ => h2 l _ _) e1)
  rw [hm hx] at e
  cases e
  exact hx

theorem vRel_prim {o : Op} (ho : NoLoad o) (hn : ∀ c v, o ≠ .notify c v) {s s' : St} (h : Prim o s s') : VRel s s' := by
  intro i
  obtain ⟨h1, h2, h3⟩ := ho
  cases h with
  | «begin» | info' | bridge' | bridged | again => exact absurd rfl (h1 _)
  | isInit | loaded => exact absurd rfl h2
  | loaded' | first => exact absurd rfl h3
  | info | bridge => exact absurd rfl (hn _ _)
  | _ => exact ⟨i, id, rfl, rfl⟩

theorem notify_cases (o : Op) : (∃ c v, o = .notify c v) ∨ ∀ c v, o ≠ .notify c v := by
  cases o <;> simp

theorem exec_noLoad {fuel : Nat} {p : Scr} (hp : Only NoLoad p) {s : St} {r : St × Reply} (e : exec fuel p s = .ok r) : VRel s r.1 := by
  refine exec_only vRel_pre.refl vRel_pre.trans (fun o h s r ho hh e => ?_) hp e
  rcases notify_cases o with ⟨c, v, rfl⟩ | hn
  · obtain ⟨x, e1, e⟩ := bind_ok e
    cases e
    exact fun i => notify_v vRel_pre (fun _ _ => hh _) (by simp) (by simp) (fun _ _ _ i => ⟨i, id, rfl, rfl⟩) (fun h => (h i).1) e1 i
  · exact run_rel vRel_pre (fun c _ => hh c) (fun c hc => by simp [quiet_calls ho.1 ho.2.1 ho.2.2 hc]) (fun _ _ _ => by simp) (fun _ _ => vRel_prim ho hn) e

/-- The load itself. -/
theorem firstLoad_v {h : Beh} (hm : At VRel h .initialLoad) {s s' : St} (i : VInv s) (hl : s.loaded = false) (e : firstLoad h s = .ok s') : VInv s' ∧ s'.loaded = true := by
  obtain ⟨x, e1, e⟩ := bind_ok e
  cases e
  obtain ⟨y, e2, e1⟩ := bind_ok e1
  cases e1
  obtain ⟨h1, h2, h3, h4⟩ := hm _ _ _ _ e2 i.mode
  refine ⟨⟨h1, h2 i.br, ?_⟩, rfl⟩
  show loads (y.1.note _) = 1
  rw [loads_note, h4, loads_note, i.num, hl]
  rfl

theorem vStep_prim {o : Op} (h0 : NoStart o) (h1 : o ≠ .gameInit) (h2 : o ≠ .levelShutdown) (h3 : ∀ c v, o ≠ .notify c v) {s s' : St} (h : Prim o s s') : VStep s s' :=
  vStep_of (vRel_prim ⟨h0, h1, h2⟩ h3 h)

/-- After the start of the game or the end of a level the plugins are loaded. -/
theorem run_v {fuel : Nat} {h : Beh} {o : Op} (h0 : NoStart o) (hm : At VRel h .initialLoad) (hc : ∀ c, c ≠ .initialLoad → At VStep h c) {s : St} {r : St × Reply}
    (e : run fuel h o s = .ok r) : VInv s → (VInv r.1 ∧ (s.loaded = true → r.1.loaded = true)) ∧ (o = .levelShutdown ∨ (o = .gameInit ∧ s.isInit = false) → r.1.loaded = true) := by
  intro i
  by_cases h1 : o = .gameInit
  · subst h1
    obtain ⟨x, e1, e⟩ := bind_ok e
    cases e
    unfold gameInit at e1
    split at e1
    · rename_i hi
      cases e1
      exact ⟨⟨i, id⟩, fun h => by rcases h with h | h; cases h; rw [hi] at h; exact absurd h.2 (by simp)⟩
    · obtain ⟨y, e2, e1⟩ := bind_ok e1
      obtain ⟨z, e3, e1⟩ := bind_ok e1
      cases e1
      obtain ⟨iy, my⟩ := initializeIf_rel vStep_pre (hc _ (by simp)) (by simp) (by simp) e2 i
      unfold firstLoadIf at e3
      split at e3
      · rename_i hb
        have hl : y.loaded = false := by simpa [iy.br] using hb
        obtain ⟨iz, lz⟩ := firstLoad_v hm iy hl e3
        exact ⟨⟨⟨iz.mode, iz.br, iz.num⟩, fun _ => lz⟩, fun _ => lz⟩
      · rename_i hb
        have hl : y.loaded = true := by simpa [iy.br] using hb
        cases e3
        exact ⟨⟨⟨iy.mode, iy.br, iy.num⟩, my⟩, fun _ => hl⟩
  · by_cases h2 : o = .levelShutdown
    · subst h2
      obtain ⟨x, e1, e⟩ := bind_ok e
      cases e
      obtain ⟨y, e2, e1⟩ := bind_ok e1
      obtain ⟨z, e3, e1⟩ := bind_ok e1
      have hy : VInv y ∧ y.loaded = true := by
        unfold levelFirst at e2
        split at e2
        · rename_i hb
          have hl : s.loaded = false := by simpa [i.br] using hb
          obtain ⟨w, e4, e2⟩ := bind_ok e2
          cases e2
          obtain ⟨iw, lw⟩ := firstLoad_v hm i hl e4
          exact ⟨⟨iw.mode, iw.br, iw.num⟩, lw⟩
        · rename_i hb
          have hl : s.loaded = true := by simpa [i.br] using hb
          cases e2
          exact ⟨i, hl⟩
      have hz : VInv z ∧ z.loaded = true := by
        unfold levelReload at e3
        split at e3
        · cases e3; exact ⟨⟨hy.1.mode, hy.1.br, hy.1.num⟩, hy.2⟩
        · obtain ⟨w, e4, e3⟩ := bind_ok e3
          cases e3
          have := doCall_rel vStep_pre (hc .reload (by simp)) (by simp) (by simp) e4 hy.1
          exact ⟨this.1, this.2 hy.2⟩
      have hx := iterEvent_rel vStep_pre (fun l => hc (.levelShutdown l) (by simp)) (by simp) (by simp) e1 hz.1
      exact ⟨⟨hx.1, fun _ => hx.2 hz.2⟩, fun _ => hx.2 hz.2⟩
    · refine ⟨?_, fun h => by rcases h with h | h; exact absurd h h2; exact absurd h.1 h1⟩
      rcases notify_cases o with ⟨c, v, rfl⟩ | hn
      · obtain ⟨x, e1, e⟩ := bind_ok e
        cases e
        exact notify_v vStep_pre (fun _ _ => hc _ (by simp)) (by simp) (by simp) (fun _ _ _ i => ⟨⟨i.mode, i.br, i.num⟩, id⟩) (fun h => (h i).1.mode) e1 i
      · exact run_rel vStep_pre (fun c hcc => hc c (quiet_calls h0 h1 h2 hcc)) (fun c hcc => by simp [quiet_calls h0 h1 h2 hcc]) (fun _ _ _ => by simp) (fun _ _ => vStep_prim h0 h1 h2 hn) e i

theorem exec_calm {fuel : Nat} {p : Scr} (hp : Calm p) : ∀ {s : St} {r : St × Reply}, exec fuel p s = .ok r → VStep s r.1 := by
  induction hp with
  | ret => intro s r e; cases e; exact vStep_pre.refl _
  | op ho hm hc hn ihc ihn =>
    intro s r e
    obtain ⟨x, e1, e⟩ := bind_ok e
    exact vStep_pre.trans (fun i => (run_v ho (fun n s s' a e => exec_noLoad (hm n) e) (fun c hne n s s' a e => ihc c n hne e) e1 i).1) (ihn _ e)

theorem vsp_inv {fuel cbs : Nat} {v : Int} {cb : Call → Nat → Scr} {nx : Reply → Scr} (hn : ∀ r, Calm (nx r)) {s : St} {a : Reply}
    (e : exec fuel (.op (.start (.vsp cbs v)) cb nx) init = .ok (s, a)) : VInv s := by
  obtain ⟨x, e1, e⟩ := bind_ok e
  rw [start_vsp_init] at e1
  cases e1
  exact (exec_calm (hn _) e ⟨rfl, rfl, rfl⟩).1

/-- C56: with the server plugin loader the plugins of the configuration are loaded at most once, and `loaded` says whether. -/
theorem vsp_loads_once_partial {fuel cbs : Nat} {v : Int} {cb : Call → Nat → Scr} {nx : Reply → Scr} (hn : ∀ r, Calm (nx r)) {s : St} {a : Reply}
    (e : exec fuel (.op (.start (.vsp cbs v)) cb nx) init = .ok (s, a)) : loads s = if s.loaded then 1 else 0 := (vsp_inv hn e).num

/-- C56: they have been loaded as soon as the game has started or a level has ended. -/
theorem vsp_loads_partial {fuel cbs : Nat} {v : Int} {cb cb' : Call → Nat → Scr} {nx nx' : Reply → Scr} {o : Op} (ho : o = .gameInit ∨ o = .levelShutdown)
    (hn : ∀ r, Calm (nx r)) {s : St} {a : Reply} (e : exec fuel (.op (.start (.vsp cbs v)) cb nx) init = .ok (s, a)) (hi : s.isInit = false)
    (hc' : ∀ c n, c ≠ .initialLoad → Calm (cb' c n)) (hm' : ∀ n, Only NoLoad (cb' .initialLoad n)) (hn' : ∀ r, Calm (nx' r)) {s' : St} {a' : Reply}
    (e' : exec fuel (.op o cb' nx') s = .ok (s', a')) : loads s' = 1 := by
  obtain ⟨x, e1, e'⟩ := bind_ok e'
  have h0 : NoStart o := by rintro k rfl; rcases ho with h | h <;> cases h
  obtain ⟨⟨i, _⟩, hl⟩ := run_v h0 (fun n s s' a e => exec_noLoad (hm' n) e) (fun c hne n s s' a e => exec_calm (hc' c n hne) e) e1 (vsp_inv hn e)
  have hl := hl (by rcases ho with h | h; exact .inr ⟨h, hi⟩; exact .inl h)
  obtain ⟨i', hl'⟩ := exec_calm (hn' _) e' i
  rw [i'.num, hl' hl]
  rfl

theorem ops_calm : ∀ {l : List Op}, (∀ o ∈ l, NoStart o) → Calm (ops l)
  | [], _ => .ret _
  | o :: _, h => .op (h o (List.mem_cons_self ..)) (fun _ => .ret _) (fun _ _ _ => .ret _) fun _ => ops_calm fun o ho => h o (List.mem_cons_of_mem _ ho)

example : ∃ s s' a a', Calm (ops [.addPlugin 4, .addListener 0 10, .enable]) ∧ Calm (ops [.levelInit, .levelShutdown, .levelShutdown]) ∧
    exec 3 (ops [.start (.vsp 77 2), .addPlugin 4, .addListener 0 10, .enable]) init = .ok (s, a) ∧ s.isInit = false ∧ loads s = 0 ∧
    exec 3 (ops [.gameInit, .levelInit, .levelShutdown, .levelShutdown]) s = .ok (s', a') ∧ loads s' = 1 := by
  refine ⟨_, _, _, _, ops_calm ?_, ops_calm ?_, rfl, rfl, rfl, rfl, rfl⟩ <;> simp [NoStart]

/-- C56 needs that condition on the first load: `were_plugins_loaded` is written after it (core/metamod.cpp:146-151), so a plugin
whose loading ends a level has the plugins loaded a second time, within the first. -/
theorem nested_load_twice : resSt loads (exec 3 (.op (.start (.vsp 77 2)) (fun _ _ => .ret (0, none)) fun _ =>
    .op .gameInit (fun c n => if c = .initialLoad ∧ n = 0 then .op .levelShutdown (fun _ _ => .ret (0, none)) fun _ => .ret (0, none) else .ret (0, none)) fun _ => .ret (0, none)) init) = some 2 := by
  decide +kernel

/-! ### The end of a level -/

/-- How often the configuration was read again. -/
def reloads (s : St) : Nat := s.log.countP (· == .call .reload)

theorem reloads_note (s : St) (e : Ev) : reloads (s.note e) = reloads s + if e = .call .reload then 1 else 0 := by
  simp only [reloads, St.note, List.countP_append, List.countP_cons, List.countP_nil]
  by_cases h : e = .call .reload <;> simp [h]

/-- What everything but the end of a level keeps. -/
def LevelRel (s s' : St) : Prop := s'.firstLevel = s.firstLevel ∧ reloads s' = reloads s ∧ s'.loaded = s.loaded ∧ s'.bridged = s.bridged

/-- External code during the end of a level that changes none of these. -/
def LevelStill (h : Beh) : Prop := ∀ c, At LevelRel h c

theorem levelRel_pre : Pre LevelRel (fun e => e ≠ .call .reload) :=
  ⟨fun _ => ⟨rfl, rfl, rfl, rfl⟩, fun h g => ⟨g.1.trans h.1, g.2.1.trans h.2.1, g.2.2.1.trans h.2.2.1, g.2.2.2.trans h.2.2.2⟩,
    fun he => ⟨rfl, by rw [reloads_note, if_neg he]; rfl, rfl, rfl⟩⟩

/-- C56: the end of a level reads the configuration again unless it is the first since the plugins were loaded; after it the level is
not the first any more. -/
theorem levelShutdown_reloads {h : Beh} (hh : LevelStill h) {fuel : Nat} {s s' : St} {t : Trace} (e : levelShutdown h fuel s = .ok (s', t)) :
    s'.firstLevel = false ∧ reloads s' = reloads s + if s.firstLevel = true ∨ (s.bridged = true ∧ s.loaded = false) then 0 else 1 := by
  obtain ⟨x, e1, e⟩ := bind_ok e
  obtain ⟨y, e2, e⟩ := bind_ok e
  obtain ⟨g1, g2, -⟩ := iterEvent_rel (c := .levelShutdown) levelRel_pre (fun l => hh _) (by simp) (by simp) e
  have hx : reloads x = reloads s ∧ (x.firstLevel = true ↔ s.firstLevel = true ∨ (s.bridged = true ∧ s.loaded = false)) := by
    unfold levelFirst at e1
    split at e1
    · rename_i hb
      obtain ⟨z, e3, e1⟩ := bind_ok e1
      cases e1
      obtain ⟨w, e4, e3⟩ := bind_ok e3
      cases e3
      obtain ⟨k1, k2, -⟩ := doCall_rel levelRel_pre (hh .initialLoad) (by simp) (by simp) e4
      exact ⟨k2, by simpa using .inr (by simpa using hb)⟩
    · rename_i hb
      cases e1
      exact ⟨rfl, ⟨.inl, fun h => h.elim id fun h => absurd (by simp [h]) hb⟩⟩
  have hy : y.firstLevel = false ∧ reloads y = reloads x + if x.firstLevel = true then 0 else 1 := by
    unfold levelReload at e2
    split at e2
    · rename_i hf
      cases e2
      exact ⟨rfl, by simp [hf, reloads]⟩
    · rename_i hf
      obtain ⟨w, e4, e2⟩ := bind_ok e2
      cases e2
      obtain ⟨v, e5, e4⟩ := bind_ok e4
      cases e4
      obtain ⟨k1, k2, -⟩ := hh .reload _ _ _ _ e5
      refine ⟨k1.trans (by show x.firstLevel = false; simpa using hf), ?_⟩
      show reloads (v.1.note _) = _
      rw [reloads_note, k2, reloads_note, if_neg hf]
      simp
  refine ⟨g1.trans hy.1, ?_⟩
  show reloads s' = _
  rw [show reloads s' = reloads y from g2, hy.2, hx.1]
  by_cases hc : s.firstLevel = true ∨ (s.bridged = true ∧ s.loaded = false)
  · rw [if_pos hc, if_pos (hx.2.2 hc)]
  · rw [if_neg hc, if_neg fun h => hc (hx.2.1 h)]

/-- `n` levels in a row. -/
def levels (h : Beh) (fuel : Nat) : Nat → St → R St
  | 0, s => .ok s
  | n + 1, s => do
    let r ← levelShutdown h fuel s
    levels h fuel n r.1

theorem levelFirst_done {h : Beh} (hh : LevelStill h) {fuel : Nat} {s s' : St} {t : Trace} (e : levelShutdown h fuel s = .ok (s', t)) : ¬ (s'.bridged = true ∧ s'.loaded = false) := by
  obtain ⟨x, e1, e⟩ := bind_ok e
  obtain ⟨y, e2, e⟩ := bind_ok e
  obtain ⟨-, -, g3, g4⟩ := iterEvent_rel (c := .levelShutdown) levelRel_pre (fun l => hh _) (by simp) (by simp) e
  have hx : ¬ (x.bridged = true ∧ x.loaded = false) := by
    unfold levelFirst at e1
    split at e1
    · obtain ⟨z, e3, e1⟩ := bind_ok e1
      cases e1
      obtain ⟨w, e4, e3⟩ := bind_ok e3
      cases e3
      exact fun h => nomatch h.2
    · rename_i hb
      cases e1
      exact fun h => hb (by simp [h])
  have hy : y.bridged = x.bridged ∧ y.loaded = x.loaded := by
    unfold levelReload at e2
    split at e2
    · cases e2; exact ⟨rfl, rfl⟩
    · obtain ⟨w, e4, e2⟩ := bind_ok e2
      cases e2
      obtain ⟨v, e5, e4⟩ := bind_ok e4
      cases e4
      obtain ⟨-, -, k3, k4⟩ := hh .reload _ _ _ _ e5
      exact ⟨k4, k3⟩
  have g3 : s'.loaded = y.loaded := g3
  have g4 : s'.bridged = y.bridged := g4
  rw [g4, g3, hy.1, hy.2]
  exact hx

/-- C56: of any number of levels in a row all but the first have the configuration read again. -/
theorem levels_reload {h : Beh} (hh : LevelStill h) {fuel : Nat} : ∀ {n : Nat} {s s' : St}, s.firstLevel = true → levels h fuel (n + 1) s = .ok s' → reloads s' = reloads s + n := by
  have aux : ∀ {n : Nat} {s s' : St}, s.firstLevel = false → ¬ (s.bridged = true ∧ s.loaded = false) → levels h fuel n s = .ok s' → reloads s' = reloads s + n := by
    intro n
    induction n with
    | zero => intro s s' _ _ e; cases e; rfl
    | succ n ih =>
      intro s s' hf hb e
      obtain ⟨x, e1, e⟩ := bind_ok e
      obtain ⟨k1, k2⟩ := levelShutdown_reloads hh e1
      rw [ih k1 (levelFirst_done hh e1) e, k2, if_neg (by simp only [hf, Bool.false_eq_true, false_or]; exact hb)]
      omega
  intro n s s' hf e
  obtain ⟨x, e1, e⟩ := bind_ok e
  obtain ⟨k1, k2⟩ := levelShutdown_reloads hh e1
  rw [aux k1 (levelFirst_done hh e1) e, k2, if_pos (.inl hf)]
  omega

example : LevelStill (answers fun _ => (0, none)) := fun c n s s' a e => by cases e; exact ⟨rfl, rfl, rfl, rfl⟩

example : ∃ s s', start (answers fun _ => (0, none)) 3 .gamedll init = .ok s ∧ s.firstLevel = true ∧ levels (answers fun _ => (0, none)) 3 4 s = .ok s' ∧ reloads s' = 3 :=
  ⟨_, _, rfl, rfl, rfl, rfl⟩

#print axioms command_at_most_once
#print axioms command_requested
#print axioms command_sent
#print axioms enable_idempotent
#print axioms enable_nested_twice
#print axioms only_notify_tells
#print axioms notify_tells
#print axioms told_exactly_once
#print axioms late_never_told
#print axioms gamedll_loads_once
#print axioms vsp_loads_once_partial
#print axioms vsp_loads_partial
#print axioms nested_load_twice
#print axioms levelShutdown_reloads
#print axioms levels_reload

end Verif.Core
