import Verif.Prov.ConReg
/-
Property C83: a plugin's console commands and variables are the engine's exactly while the plugin has them registered.
-/
namespace Verif.Prov.Con

/-! ### Spec -/

/-- Specification: what the last entry about the command `c` says: registered or not. -/
def lastCmd (c : Nat) : List Mgr.Ev → Option Bool
  | [] => none
  | e :: es => match lastCmd c es with
    | some b => some b
    | none => match e with
      | .regCmd _ a => if a = c then some true else none
      | .unregCmd _ a => if a = c then some false else none
      | _ => none

/-- Specification: the end of the command `c` is in the log. -/
def CmdEnded (c : Nat) (log : List Mgr.Ev) : Prop := ∃ o, Mgr.Ev.unregCmd o c ∈ log

/-- Specification: the end of the variable `v` is in the log. -/
def VarEnded (v : Nat) (log : List Mgr.Ev) : Prop := ∃ o, Mgr.Ev.unregVar o v ∈ log

/-- Specification: the console does not find the command (bit 1 of the flags). -/
def Hidden (s : St) (c : Nat) : Prop := (s.cmd c).flags.getLsbD 1 = true

/-! ### One call -/

theorem devOnly_bit (i : Nat) : devOnly.getLsbD i = decide (i = 1) := by
  by_cases h : i < 64
  · have : ∀ i : Fin 64, devOnly.getLsbD i.val = decide (i.val = 1) := by decide
    exact this ⟨i, h⟩
  · rw [BitVec.getLsbD_of_ge _ _ (by omega)]
    have : i ≠ 1 := by omega
    simp [this]

theorem and_devOnly (x : BitVec 64) : x &&& devOnly ≠ 0 ↔ x.getLsbD 1 = true := by
  constructor
  · intro h
    by_cases hx : x.getLsbD 1 = true
    · exact hx
    · exfalso
      apply h
      apply BitVec.eq_of_getLsbD_eq
      intro i hi
      rw [BitVec.getLsbD_and, devOnly_bit]
      by_cases e : i = 1
      · subst e
        rw [Bool.eq_false_iff.2 hx]; rfl
      · rw [decide_eq_false e, Bool.and_false]; exact BitVec.getLsbD_zero.symm
  · intro h e
    have e := congrArg (fun y : BitVec 64 => y.getLsbD 1) e
    rw [BitVec.getLsbD_and, h, devOnly_bit] at e
    exact absurd e (by decide)

theorem regCmd_flags (c a i : Nat) (s : St) : ((regCmd c s).cmd a).flags.getLsbD i =
    if a = c ∧ i = 1 then false else (s.cmd a).flags.getLsbD i := by
  unfold regCmd
  split
  · by_cases e : a = c
    · subst e
      by_cases h : i < 64
      · dsimp only
        rw [if_pos rfl, BitVec.getLsbD_and, BitVec.getLsbD_not, devOnly_bit, decide_eq_true h]
        by_cases e1 : i = 1
        · rw [if_pos ⟨rfl, e1⟩, decide_eq_true e1]; exact Bool.and_false _
        · rw [if_neg (fun x => e1 x.2), decide_eq_false e1]; exact Bool.and_true _
      · simp [BitVec.getLsbD_of_ge _ _ (by omega : 64 ≤ i)]
    · simp [e]
  · rename_i h
    have h : (s.cmd c).flags.getLsbD 1 = false := by
      cases hx : (s.cmd c).flags.getLsbD 1 with
      | false => rfl
      | true => exact absurd ((and_devOnly _).2 hx) h
    by_cases e : a = c ∧ i = 1
    · rw [if_pos e, e.1, e.2, h]
    · rw [if_neg e]

theorem unregCmd_flags (c a i : Nat) (s : St) : ((unregCmd c s).cmd a).flags.getLsbD i =
    if a = c ∧ i = 1 then true else (s.cmd a).flags.getLsbD i := by
  unfold unregCmd
  by_cases e : a = c
  · subst e
    by_cases e1 : i = 1 <;> simp [BitVec.getLsbD_or, devOnly_bit, e1]
  · simp [e]

theorem tell_flags (e : Mgr.Ev) (c i : Nat) (s : St) : ((tell s e).cmd c).flags.getLsbD i =
    if i = 1 then (lastCmd c [e]).elim ((s.cmd c).flags.getLsbD i) Bool.not else (s.cmd c).flags.getLsbD i := by
  cases e <;> simp only [tell, lastCmd, regVar, unregVar, Option.elim, ite_self]
  · rename_i o v
    rw [regCmd_flags]
    by_cases e : v = c <;> by_cases e1 : i = 1 <;> simp [e, e1, eq_comm (a := c)]
  · rename_i o v
    rw [unregCmd_flags]
    by_cases e : v = c <;> by_cases e1 : i = 1 <;> simp [e, e1, eq_comm (a := c)]

theorem lastCmd_cons (c : Nat) (e : Mgr.Ev) (es : List Mgr.Ev) : lastCmd c (e :: es) = (lastCmd c es).or (lastCmd c [e]) := by
  conv => lhs; unfold lastCmd
  cases lastCmd c es <;> simp [lastCmd]

theorem told_flags : ∀ (log : List Mgr.Ev) (c i : Nat) (s : St), ((told log s).cmd c).flags.getLsbD i =
    if i = 1 then (lastCmd c log).elim ((s.cmd c).flags.getLsbD i) Bool.not else (s.cmd c).flags.getLsbD i := by
  intro log
  induction log with
  | nil => intro c i s; simp [told, lastCmd]
  | cons e es ih =>
    intro c i s
    show ((told es (tell s e)).cmd c).flags.getLsbD i = _
    rw [ih, tell_flags, lastCmd_cons c e es]
    by_cases h : i = 1
    · simp only [h, if_true]
      cases lastCmd c es <;> simp [Option.or]
    · simp [h]

/-! ### C83 -/

/-- C83: after any sequence of calls a command of Source 2 is hidden exactly if the last call about it was to unregister it; one
never spoken of is as it was. -/
theorem hidden_iff (log : List Mgr.Ev) (s : St) (c : Nat) :
    Hidden (told log s) c ↔ lastCmd c log = some false ∨ (lastCmd c log = none ∧ Hidden s c) := by
  unfold Hidden
  rw [told_flags]
  cases h : lastCmd c log with
  | none => simp
  | some b => cases b <;> simp

/-- C83: no call changes another flag of a command. -/
theorem other_flags_kept (log : List Mgr.Ev) (s : St) (c i : Nat) (h : i ≠ 1) :
    ((told log s).cmd c).flags.getLsbD i = (s.cmd c).flags.getLsbD i := by
  rw [told_flags, if_neg h]

/-- C83: the callbacks of a command are registered exactly if they were and the command's end was never told. -/
theorem cmd_callbacks (log : List Mgr.Ev) : ∀ (s : St) (c : Nat), ((told log s).cmd c).cbs = true ↔ (s.cmd c).cbs = true ∧ ¬ CmdEnded c log := by
  induction log with
  | nil => intro s c; simp [told, CmdEnded]
  | cons e es ih =>
    intro s c
    show ((told es (tell s e)).cmd c).cbs = true ↔ _
    rw [ih]
    have h : ((tell s e).cmd c).cbs = true ↔ (s.cmd c).cbs = true ∧ ¬ ∃ o, e = .unregCmd o c := by
      cases e <;> simp [tell, regVar, unregVar]
      · rename_i o v
        unfold regCmd; split
        · by_cases hv : c = v <;> simp [hv]
        · rfl
      · rename_i o v
        unfold unregCmd
        by_cases hv : c = v
        · simp [hv]
        · simp [hv, Ne.symm hv]
    rw [h]
    unfold CmdEnded
    constructor
    · rintro ⟨⟨a, b⟩, d⟩
      refine ⟨a, ?_⟩
      rintro ⟨o, ho⟩
      rcases List.mem_cons.1 ho with ho | ho
      · exact b ⟨o, ho.symm⟩
      · exact d ⟨o, ho⟩
    · rintro ⟨a, b⟩
      exact ⟨⟨a, fun ⟨o, ho⟩ => b ⟨o, by simp [ho]⟩⟩, fun ⟨o, ho⟩ => b ⟨o, List.mem_cons_of_mem _ ho⟩⟩

/-- C83: a variable's data and callbacks are as they were until its end is told, and are gone from then on. -/
theorem var_state (log : List Mgr.Ev) : ∀ (s : St) (v : Nat), (VarEnded v log → (told log s).var v = ⟨false, false⟩) ∧
    (¬ VarEnded v log → (told log s).var v = s.var v) := by
  induction log with
  | nil => intro s v; simp [told, VarEnded]
  | cons e es ih =>
    intro s v
    show (_ → (told es (tell s e)).var v = _) ∧ (_ → (told es (tell s e)).var v = _)
    have h1 : (∃ o, e = .unregVar o v) → (tell s e).var v = ⟨false, false⟩ := by
      rintro ⟨o, rfl⟩; simp [tell, unregVar]
    have h2 : (¬ ∃ o, e = .unregVar o v) → (tell s e).var v = s.var v := by
      intro h
      cases e <;> simp [tell, regVar, unregCmd]
      · unfold regCmd; split <;> rfl
      · rename_i o a
        have : v ≠ a := fun x => h ⟨o, by rw [x]⟩
        simp [unregVar, this]
    have hc : VarEnded v (e :: es) ↔ (∃ o, e = .unregVar o v) ∨ VarEnded v es := by
      unfold VarEnded
      constructor
      · rintro ⟨o, ho⟩
        rcases List.mem_cons.1 ho with ho | ho
        · exact .inl ⟨o, ho.symm⟩
        · exact .inr ⟨o, ho⟩
      · rintro (⟨o, ho⟩ | ⟨o, ho⟩)
        · exact ⟨o, by simp [ho]⟩
        · exact ⟨o, List.mem_cons_of_mem _ ho⟩
    rw [hc]
    constructor
    · intro h
      by_cases he : VarEnded v es
      · exact (ih _ v).1 he
      · rw [(ih _ v).2 he]
        exact h1 (h.resolve_right he)
    · intro h
      rw [(ih _ v).2 (fun x => h (.inr x)), h2 (fun x => h (.inl x))]

/-! Unloading a plugin. -/

theorem told_append (a b : List Mgr.Ev) (s : St) : told (a ++ b) s = told b (told a s) := List.foldl_append

theorem told_conLog (log : List Mgr.Ev) : ∀ s, told (Mgr.conLog log) s = told log s := by
  induction log with
  | nil => intro s; rfl
  | cons e es ih =>
    intro s
    cases e <;> simp only [Mgr.conLog, List.filter_cons] <;> first | exact ih _ | exact ih (tell s _)

theorem lastCmd_append (c : Nat) (a b : List Mgr.Ev) : lastCmd c (a ++ b) = (lastCmd c b).or (lastCmd c a) := by
  induction a with
  | nil => simp [lastCmd]
  | cons e es ih =>
    rw [List.cons_append, lastCmd_cons, ih, lastCmd_cons c e es, Option.or_assoc]

theorem lastCmd_vars (c : Nat) (f : Nat × Nat → Mgr.Ev) (hf : ∀ x, lastCmd c [f x] = none) : ∀ l : List (Nat × Nat), lastCmd c (l.map f) = none := by
  intro l
  induction l with
  | nil => rfl
  | cons x xs ih => rw [List.map_cons, lastCmd_cons, ih, hf]; rfl

theorem lastCmd_cmds (c o : Nat) : ∀ l : List (Nat × Nat), lastCmd c (l.map (fun x => Mgr.Ev.unregCmd (some o) x.2)) =
    if c ∈ l.map Prod.snd then some false else none := by
  intro l
  induction l with
  | nil => rfl
  | cons x xs ih =>
    rw [List.map_cons, lastCmd_cons, ih]
    by_cases h : c ∈ xs.map Prod.snd
    · rw [if_pos h, if_pos (by simp only [List.map_cons, List.mem_cons]; exact .inr h)]; rfl
    · rw [if_neg h]
      by_cases hx : x.2 = c
      · simp [lastCmd, hx]
      · rw [if_neg (by simp only [List.map_cons, List.mem_cons]; rintro (e | e)
                       · exact hx e.symm
                       · exact h e)]
        simp [lastCmd, hx]

theorem lastCmd_unreg (c o : Nat) (p : Mgr.Plug) : lastCmd c (Mgr.unregEvs o p) = if c ∈ p.cmds.map Prod.snd then some false else none := by
  unfold Mgr.unregEvs
  rw [lastCmd_append, lastCmd_cmds, lastCmd_vars c _ (fun x => rfl)]
  simp

/-- C83: once a plugin's `Unload` function has answered, unloading it hides each command it has registered, makes each of its
variables invalid, and leaves those of everyone else as they are. -/
theorem unload_hides_partial {r : Bool} {s s' : Mgr.St} {fuel o : Nat} {force : Bool} {cb : Mgr.Call → Nat → Mgr.Scr} (hr : Mgr.Reach r s)
    (hcb : ∀ c n, (cb c n).Ok r) (hq : Mgr.ConQuiet (Mgr.cbs fuel cb)) {p : Mgr.Plug} (hp : s.objs o = some p)
    (ha : p.api.isSome = true ∧ p.lib.isSome = true) (e : Mgr.unload_ (Mgr.cbs fuel cb) fuel o force s = .ok (s', true)) (k : St) :
    ∃ s1 b p1, Mgr.doCall (Mgr.cbs fuel cb) (.unload o) s = .ok (s1, b) ∧ s1.objs o = some p1 ∧
      (∀ c ∈ p1.cmds.map Prod.snd, Hidden (told s'.log k) c ∧ ((told s'.log k).cmd c).cbs = false) ∧
      (∀ c, c ∉ p1.cmds.map Prod.snd → (Hidden (told s'.log k) c ↔ Hidden (told s1.log k) c)) ∧
      (∀ v ∈ p1.cvars.map Prod.snd, (told s'.log k).var v = ⟨false, false⟩) ∧
      (∀ v, v ∉ p1.cvars.map Prod.snd → (told s'.log k).var v = (told s1.log k).var v) := by
  obtain ⟨s1, b, p1, e1, h1, h2⟩ := Mgr.unload_unregisters_partial hr hcb hq hp ha e
  have ht : told s'.log k = told (Mgr.unregEvs o p1) (told s1.log k) := by
    rw [← told_conLog s'.log, h2, told_append, told_conLog]
  refine ⟨s1, b, p1, e1, h1, ?_, ?_, ?_, ?_⟩
  · intro c hc
    rw [ht]
    refine ⟨(hidden_iff _ _ _).2 (.inl (by rw [lastCmd_unreg, if_pos hc])), ?_⟩
    cases hb : ((told (Mgr.unregEvs o p1) (told s1.log k)).cmd c).cbs with
    | false => rfl
    | true =>
      exfalso
      refine ((cmd_callbacks _ _ _).1 hb).2 ⟨some o, ?_⟩
      obtain ⟨x, hx, rfl⟩ := List.mem_map.1 hc
      exact List.mem_append_right _ (List.mem_map.2 ⟨x, hx, rfl⟩)
  · intro c hc
    rw [ht, hidden_iff, lastCmd_unreg, if_neg hc]
    simp
  · intro v hv
    rw [ht]
    refine (var_state _ _ v).1 ⟨some o, ?_⟩
    obtain ⟨x, hx, rfl⟩ := List.mem_map.1 hv
    exact List.mem_append_left _ (List.mem_map.2 ⟨x, hx, rfl⟩)
  · intro v hv
    rw [ht]
    refine (var_state _ _ v).2 ?_
    rintro ⟨w, hw⟩
    rcases List.mem_append.1 hw with hw | hw
    · obtain ⟨x, hx, e⟩ := List.mem_map.1 hw
      cases e
      exact hv (List.mem_map.2 ⟨x, hx, rfl⟩)
    · obtain ⟨x, hx, e⟩ := List.mem_map.1 hw
      cases e

/-- C83: registering a command shows it again, whatever happened before: a plugin that is loaded again has its commands. -/
theorem register_shows (log : List Mgr.Ev) (s : St) (o : Option Nat) (c : Nat) : ¬ Hidden (told (log ++ [.regCmd o c]) s) c := by
  rw [hidden_iff, lastCmd_append]
  simp [lastCmd]

/-! While a plugin is loaded. -/

/-- Specification: the command `c` is registered and unregistered by `api` only, and not registered while it is (`b`: it is). -/
def OneAtATime (api c : Nat) : Bool → List Mgr.Con → Prop
  | _, [] => True
  | b, .regCmd a v :: cs => if v = c then a = api ∧ b = false ∧ OneAtATime api c true cs else OneAtATime api c b cs
  | b, .unregCmd a v :: cs => if v = c then a = api ∧ OneAtATime api c false cs else OneAtATime api c b cs
  | b, _ :: cs => OneAtATime api c b cs

/-- Specification: what a call says about the command `c`. -/
def says (c : Nat) : Mgr.Con → Option Bool
  | .regCmd _ a => if a = c then some true else none
  | .unregCmd _ a => if a = c then some false else none
  | _ => none

theorem con_log {h : Mgr.Beh} (hh : Mgr.ConQuiet h) {fuel : Nat} {x : Mgr.Con} {s s' : Mgr.St} (e : Mgr.run fuel h x.op s = .ok s') :
    ∃ ev, Mgr.conLog s'.log = Mgr.conLog s.log ++ [ev] ∧ ∀ c, lastCmd c [ev] = says c x := by
  cases x with
  | regVar api v =>
    simp only [Mgr.Con.op, Mgr.run, Mgr.regVar] at e
    obtain ⟨y, e1, e⟩ := Mgr.bind_ok e
    cases y with
    | none => cases e; exact ⟨.regVar none v, by simp [Mgr.conLog, Mgr.St.note], fun c => rfl⟩
    | some o =>
      obtain ⟨p, e2, e⟩ := Mgr.bind_ok e
      cases e; exact ⟨.regVar (some o) v, by simp [Mgr.conLog, Mgr.St.note, Mgr.St.put], fun c => rfl⟩
  | regCmd api v =>
    simp only [Mgr.Con.op, Mgr.run, Mgr.regCmd] at e
    obtain ⟨y, e1, e⟩ := Mgr.bind_ok e
    cases y with
    | none => cases e; exact ⟨.regCmd none v, by simp [Mgr.conLog, Mgr.St.note], fun c => rfl⟩
    | some o =>
      obtain ⟨p, e2, e⟩ := Mgr.bind_ok e
      cases e; exact ⟨.regCmd (some o) v, by simp [Mgr.conLog, Mgr.St.note, Mgr.St.put], fun c => rfl⟩
  | unregVar api v =>
    simp only [Mgr.Con.op, Mgr.run, Mgr.unregVar] at e
    obtain ⟨y, e1, e⟩ := Mgr.bind_ok e
    cases y with
    | none => exact ⟨_, (Mgr.unregVarId_con hh e).calls, fun c => rfl⟩
    | some o =>
      obtain ⟨p, e2, e⟩ := Mgr.bind_ok e
      exact ⟨_, (Mgr.unregVarId_con hh e).calls, fun c => rfl⟩
  | unregCmd api v =>
    simp only [Mgr.Con.op, Mgr.run, Mgr.unregCmd] at e
    obtain ⟨y, e1, e⟩ := Mgr.bind_ok e
    cases y with
    | none => exact ⟨_, (Mgr.unregCmdId_con hh e).calls, fun c => rfl⟩
    | some o =>
      obtain ⟨p, e2, e⟩ := Mgr.bind_ok e
      exact ⟨_, (Mgr.unregCmdId_con hh e).calls, fun c => rfl⟩

/-- C83: while a plugin is loaded, a command that only it registers, once at a time, is shown by the engine exactly while it is on the
plugin's list, whatever is registered and unregistered by it and by others. -/
theorem listed_iff_shown_partial {h : Mgr.Beh} (hh : Mgr.ConQuiet h) {fuel : Nat} {api o c : Nat} {k : St} : ∀ (cs : List Mgr.Con) {s s' : Mgr.St} {p : Mgr.Plug},
    Mgr.IsPlugin s api o → s.objs o = some p → (p.cmds.map Prod.snd).count c ≤ 1 → (c ∈ p.cmds.map Prod.snd ↔ ¬ Hidden (told s.log k) c) →
    OneAtATime api c (decide (c ∈ p.cmds.map Prod.snd)) cs → Mgr.runCons fuel h cs s = .ok s' →
    ∃ p', s'.objs o = some p' ∧ (c ∈ p'.cmds.map Prod.snd ↔ ¬ Hidden (told s'.log k) c) := by
  intro cs
  induction cs with
  | nil => intro s s' p _ hp _ hv _ e; cases e; exact ⟨p, hp, hv⟩
  | cons x cs ih =>
    intro s s' p hf hp hcn hv hone e
    rw [Mgr.runCons] at e
    obtain ⟨s1, e1, e2⟩ := Mgr.bind_ok e
    clear e
    have e := e2
    obtain ⟨hf1, p1, hp1, -, h2⟩ := Mgr.con_step hh hf hp e1
    obtain ⟨ev, hl, hs⟩ := con_log hh e1
    have ht : told s1.log k = told [ev] (told s.log k) := by
      rw [← told_conLog s1.log, hl, told_append, told_conLog]
    have hhid : Hidden (told s1.log k) c ↔ says c x = some false ∨ (says c x = none ∧ Hidden (told s.log k) c) := by
      rw [ht, hidden_iff, hs]
    have hc1 : ∀ (b : Bool), (says c x = some true → b = true) → (says c x = some false → b = false) → (says c x = none → b = decide (c ∈ p.cmds.map Prod.snd)) →
        (c ∈ p1.cmds.map Prod.snd ↔ b = true) → (c ∈ p1.cmds.map Prod.snd ↔ ¬ Hidden (told s1.log k) c) := by
      intro b g1 g2 g3 g4
      rw [g4, hhid]
      cases hsx : says c x with
      | none => rw [g3 hsx]; simp [hv]
      | some d => cases d
                  · simp [g2 hsx]
                  · simp [g1 hsx]
    cases x with
    | regVar a v =>
      have hl1 : p1.cmds.map Prod.snd = p.cmds.map Prod.snd := by simpa [Mgr.cmdsAfter] using h2
      refine ih hf1 hp1 (by rw [hl1]; exact hcn) (hc1 (decide (c ∈ p.cmds.map Prod.snd)) (fun g => by simp [says] at g) (fun g => by simp [says] at g) (fun _ => rfl) (by rw [hl1]; simp)) ?_ e
      rw [hl1]; exact hone
    | unregVar a v =>
      have hl1 : p1.cmds.map Prod.snd = p.cmds.map Prod.snd := by simpa [Mgr.cmdsAfter] using h2
      refine ih hf1 hp1 (by rw [hl1]; exact hcn) (hc1 (decide (c ∈ p.cmds.map Prod.snd)) (fun g => by simp [says] at g) (fun g => by simp [says] at g) (fun _ => rfl) (by rw [hl1]; simp)) ?_ e
      rw [hl1]; exact hone
    | regCmd a v =>
      have hl1 : p1.cmds.map Prod.snd = if a = api then p.cmds.map Prod.snd ++ [v] else p.cmds.map Prod.snd := by simpa [Mgr.cmdsAfter] using h2
      by_cases hvc : v = c
      · subst hvc
        simp only [OneAtATime, if_true] at hone
        obtain ⟨ha, hb, hone⟩ := hone
        rw [if_pos ha] at hl1
        have hn : v ∉ p.cmds.map Prod.snd := by simpa using hb
        refine ih hf1 hp1 ?_ (hc1 true (fun _ => rfl) (fun g => by simp [says] at g) (fun g => by simp [says] at g) (by rw [hl1]; simp)) ?_ e
        · rw [hl1, List.count_append, List.count_eq_zero.2 hn]; simp
        · rw [hl1]; simpa using hone
      · simp only [OneAtATime, hvc, if_false] at hone
        have hm : c ∈ p1.cmds.map Prod.snd ↔ c ∈ p.cmds.map Prod.snd := by
          rw [hl1]; split
          · simp only [List.mem_append, List.mem_singleton]
            exact ⟨fun g => g.resolve_right (Ne.symm hvc), .inl⟩
          · rfl
        refine ih hf1 hp1 ?_ (hc1 (decide (c ∈ p.cmds.map Prod.snd)) (fun g => by simp [says, hvc] at g) (fun g => by simp [says, hvc] at g) (fun _ => rfl) (by rw [hm]; simp)) ?_ e
        · rw [hl1]; split
          · rw [List.count_append, List.count_singleton]; simp [hvc]; simpa using hcn
          · exact hcn
        · rw [decide_eq_decide.2 hm]; exact hone
    | unregCmd a v =>
      have hl1 : p1.cmds.map Prod.snd = if a = api then (p.cmds.map Prod.snd).erase v else p.cmds.map Prod.snd := by simpa [Mgr.cmdsAfter] using h2
      by_cases hvc : v = c
      · subst hvc
        simp only [OneAtATime, if_true] at hone
        obtain ⟨ha, hone⟩ := hone
        rw [if_pos ha] at hl1
        have hn : v ∉ p1.cmds.map Prod.snd := by
          rw [hl1, ← List.count_eq_zero, List.count_erase_self]; omega
        refine ih hf1 hp1 ?_ (hc1 false (fun g => by simp [says] at g) (fun _ => rfl) (fun g => by simp [says] at g) ⟨fun g => absurd g hn, fun g => by cases g⟩) ?_ e
        · rw [List.count_eq_zero.2 hn]; omega
        · rw [decide_eq_false hn]; exact hone
      · simp only [OneAtATime, hvc, if_false] at hone
        have hm : c ∈ p1.cmds.map Prod.snd ↔ c ∈ p.cmds.map Prod.snd := by
          rw [hl1]; split
          · exact List.mem_erase_of_ne (Ne.symm hvc)
          · rfl
        refine ih hf1 hp1 ?_ (hc1 (decide (c ∈ p.cmds.map Prod.snd)) (fun g => by simp [says, hvc] at g) (fun g => by simp [says, hvc] at g) (fun _ => rfl) (by rw [hm]; simp)) ?_ e
        · rw [hl1]; split
          · rw [List.count_erase_of_ne (Ne.symm hvc)]; exact hcn
          · exact hcn
        · rw [decide_eq_decide.2 hm]; exact hone

/-! The engines before Source 2, without a function to unregister. -/

theorem toldOld_append (fuel : Nat) : ∀ (a b : List Mgr.Ev) (s : Cmd.St), toldOld fuel (a ++ b) s = (toldOld fuel a s).bind (toldOld fuel b) := by
  intro a
  induction a with
  | nil => intro b s; rfl
  | cons e es ih =>
    intro b s
    rw [List.cons_append, toldOld, toldOld]
    cases tellOld fuel s e with
    | none => rfl
    | some s => exact ih b s

theorem toldOld_cons (fuel : Nat) (e : Mgr.Ev) (es : List Mgr.Ev) (s : Cmd.St) : toldOld fuel (e :: es) s = (tellOld fuel s e).bind (toldOld fuel es) := by
  rw [toldOld]
  cases tellOld fuel s e <;> rfl

theorem toldOld_conLog (fuel : Nat) (log : List Mgr.Ev) : ∀ s, toldOld fuel (Mgr.conLog log) s = toldOld fuel log s := by
  induction log with
  | nil => intro s; rfl
  | cons e es ih =>
    intro s
    have ih : toldOld fuel (Mgr.conLog es) = toldOld fuel es := funext ih
    have hs : ∀ (x : Mgr.Ev), Mgr.conLog (x :: es) = x :: Mgr.conLog es → toldOld fuel (Mgr.conLog (x :: es)) s = toldOld fuel (x :: es) s := by
      intro x hx
      rw [hx, toldOld_cons, toldOld_cons, ih]
    have hn : ∀ (x : Mgr.Ev), Mgr.conLog (x :: es) = Mgr.conLog es → tellOld fuel s x = some s →
        toldOld fuel (Mgr.conLog (x :: es)) s = toldOld fuel (x :: es) s := by
      intro x hx hy
      rw [hx, toldOld_cons, hy, ih]; rfl
    cases e <;> first | exact hs _ rfl | exact hn _ rfl rfl

theorem toldOld_unreg (fuel : Nat) : ∀ (evs : List Mgr.Ev) (vs : List Nat), evs.length = vs.length →
    (∀ i (h : i < evs.length) (h' : i < vs.length), (∃ o, evs[i] = .unregVar o vs[i]) ∨ ∃ o, evs[i] = .unregCmd o vs[i]) →
    ∀ s, toldOld fuel evs s = Cmd.removeLoop fuel vs s := by
  intro evs
  induction evs with
  | nil => intro vs h _ s; cases vs with
    | nil => rfl
    | cons _ _ => simp at h
  | cons e es ih =>
    intro vs h hi s
    cases vs with
    | nil => simp at h
    | cons v vs =>
      have he : tellOld fuel s e = Cmd.unregister fuel v s := by
        rcases hi 0 (by simp) (by simp) with ⟨o, ho⟩ | ⟨o, ho⟩ <;> · simp at ho; rw [ho]; rfl
      rw [toldOld, he, Cmd.removeLoop]
      cases Cmd.unregister fuel v s with
      | none => rfl
      | some s =>
        refine ih vs (by simpa using h) (fun i h1 h2 => ?_) s
        have := hi (i + 1) (by simpa using h1) (by simpa using h2)
        simpa using this

/-- C83, engines before Orange Box: unloading a plugin takes exactly its variables and commands out of the engine's list and keeps
the order of the rest. -/
theorem unload_unlinks_partial {r : Bool} {s s' : Mgr.St} {fuel o : Nat} {force : Bool} {cb : Mgr.Call → Nat → Mgr.Scr} (hr : Mgr.Reach r s)
    (hcb : ∀ c n, (cb c n).Ok r) (hq : Mgr.ConQuiet (Mgr.cbs fuel cb)) {p : Mgr.Plug} (hp : s.objs o = some p)
    (ha : p.api.isSome = true ∧ p.lib.isSome = true) (e : Mgr.unload_ (Mgr.cbs fuel cb) fuel o force s = .ok (s', true)) :
    ∃ s1 b p1, Mgr.doCall (Mgr.cbs fuel cb) (.unload o) s = .ok (s1, b) ∧ s1.objs o = some p1 ∧
      ∀ (f : Nat) (k k1 : Cmd.St) (l : List Nat), toldOld f s1.log k = some k1 → Cmd.Chain k1.next k1.top l → k1.known = true → l.length < f →
        ∃ k', toldOld f s'.log k = some k' ∧
          Cmd.Chain k'.next k'.top (l.filter fun a => a ∉ p1.cvars.map Prod.snd ++ p1.cmds.map Prod.snd) := by
  obtain ⟨s1, b, p1, e1, h1, h2⟩ := Mgr.unload_unregisters_partial hr hcb hq hp ha e
  refine ⟨s1, b, p1, e1, h1, ?_⟩
  intro f k k1 l hk hc hkn hf
  have hu : ∀ q, toldOld f (Mgr.unregEvs o p1) q = Cmd.removeLoop f (p1.cvars.map Prod.snd ++ p1.cmds.map Prod.snd) q := by
    refine toldOld_unreg f _ _ (by simp [Mgr.unregEvs]) (fun i hi hi' => ?_)
    simp only [Mgr.unregEvs, List.getElem_append, List.length_map]
    split
    · exact .inl ⟨some o, by simp⟩
    · exact .inr ⟨some o, by simp⟩
  have ht : toldOld f s'.log k = Cmd.removeLoop f (p1.cvars.map Prod.snd ++ p1.cmds.map Prod.snd) k1 := by
    rw [← toldOld_conLog f s'.log, h2, toldOld_append, toldOld_conLog, hk]
    exact hu k1
  obtain ⟨k', g1, g2, -⟩ := Cmd.removeLoop_exact (cs := p1.cvars.map Prod.snd ++ p1.cmds.map Prod.snd) hc hkn hf
  exact ⟨k', ht.trans g1, g2⟩

/-! Which kind it is. -/

/-- C83: what is registered as a `ConCommandBase` is unregistered as the same kind, so it is taken off the list it was put on: a
plugin's lists then hold what they held. -/
theorem base_round_trip (source2 : Bool) (isCmd : Nat → Bool) (api c : Nat) (vs cs : List Nat) :
    (Mgr.varsAfter api [regBase source2 isCmd api c, unregBase source2 isCmd api c] vs).Perm vs ∧
    (Mgr.cmdsAfter api [regBase source2 isCmd api c, unregBase source2 isCmd api c] cs).Perm cs := by
  have h : ∀ l : List Nat, ((l ++ [c]).erase c).Perm l := by
    intro l
    have := (List.perm_append_comm (l₁ := l) (l₂ := [c])).erase c
    simpa using this
  unfold regBase unregBase
  split
  · exact ⟨by simp [Mgr.varsAfter], by simpa [Mgr.cmdsAfter] using h cs⟩
  · exact ⟨by simpa [Mgr.varsAfter] using h vs, by simp [Mgr.cmdsAfter]⟩

/-- C83: on the engines before Source 2 a command is registered as a command, a variable as a variable. -/
theorem base_kind (isCmd : Nat → Bool) (api c : Nat) :
    (isCmd c = true → regBase false isCmd api c = .regCmd api c ∧ unregBase false isCmd api c = .unregCmd api c) ∧
    (isCmd c = false → regBase false isCmd api c = .regVar api c ∧ unregBase false isCmd api c = .unregVar api c) := by
  constructor <;> intro h <;> simp [regBase, unregBase, isCommand, h]

/-- Finding, core/provider/source2/provider_source2.cpp:291-295, core/metamod.cpp:922-925: on Source 2 a command handed in as
`ConCommandBase` goes on the list of variables. -/
theorem base_source2 (isCmd : Nat → Bool) (api c : Nat) :
    regBase true isCmd api c = .regVar api c ∧ unregBase true isCmd api c = .unregVar api c := by
  simp [regBase, unregBase, isCommand]

/-- Finding, core/provider/source2/provider_source2.cpp:304-305: a command that its author made development-only is shown to
everyone by registering it. -/
theorem register_reveals (s : St) (o : Option Nat) (c : Nat) (_ : Hidden s c) : ¬ Hidden (told [.regCmd o c] s) c :=
  register_shows [] s o c

/-- Finding, core/metamod_plugins.cpp:852-866: a listener that registers a variable for the plugin when one of its commands is unlinked
comes too late, the plugin's variables have been gone through; the plugin goes and its variable stays. -/
theorem unlink_register_stays : Mgr.resCon 2 (Mgr.exec 10 (.op (.load [97] (Mgr.good 10)) Mgr.yes (.op (.addListener 10 5) Mgr.yes (.op (.load [98] (Mgr.good 11)) Mgr.yes
    (.op (.regCmd 11 8) Mgr.yes (.op (.unload 2 false)
      (fun c _ => match c with | .unlinkCmd _ _ 8 => .op (.regVar 11 7) (fun _ _ => .ret true) (.ret true) | _ => .ret true) (.ret true)))))) Mgr.init) =
    some ([], [], [.regCmd (some 2) 8, .regVar (some 2) 7, .unregCmd (some 2) 8]) := by rfl

/-! Metamod's own variables. -/

/-- C83: `CreateConVar` asks for exactly the engine's flags that stand for the given ones. -/
theorem new_flags (notify spOnly flags : BitVec 64) (i : Nat) : (newFlags notify spOnly flags).getLsbD i =
    ((flags.getLsbD 0 && notify.getLsbD i) || (flags.getLsbD 1 && spOnly.getLsbD i)) := by
  have h0 : flags &&& 1 ≠ 0 ↔ flags.getLsbD 0 = true := by
    have hb : ∀ j, (1 : BitVec 64).getLsbD j = decide (j = 0) := by
      intro j
      by_cases h : j < 64
      · have : ∀ i : Fin 64, (1 : BitVec 64).getLsbD i.val = decide (i.val = 0) := by decide
        exact this ⟨j, h⟩
      · rw [BitVec.getLsbD_of_ge _ _ (by omega)]
        have : j ≠ 0 := by omega
        simp [this]
    constructor
    · intro h
      cases hx : flags.getLsbD 0 with
      | true => rfl
      | false =>
        exfalso; apply h
        apply BitVec.eq_of_getLsbD_eq
        intro j hj
        rw [BitVec.getLsbD_and, hb]
        by_cases e : j = 0
        · subst e; rw [hx]; rfl
        · rw [decide_eq_false e, Bool.and_false]; exact BitVec.getLsbD_zero.symm
    · intro h e
      have e := congrArg (fun y : BitVec 64 => y.getLsbD 0) e
      rw [BitVec.getLsbD_and, h, hb] at e
      exact absurd e (by decide)
  have hz : BitVec.getLsbD (0 : BitVec 64) i = false := BitVec.getLsbD_zero
  have h1 : flags &&& 2 ≠ 0 ↔ flags.getLsbD 1 = true := and_devOnly flags
  unfold newFlags
  by_cases a : flags.getLsbD 0 = true <;> by_cases b : flags.getLsbD 1 = true
  · rw [if_pos (h1.2 b), if_pos (h0.2 a), a, b]; simp only [BitVec.getLsbD_or, Bool.true_and, hz, Bool.false_or]
  · rw [if_neg (fun x => b (h1.1 x)), if_pos (h0.2 a), a, Bool.eq_false_iff.2 b]
    simp only [BitVec.getLsbD_or, Bool.true_and, hz, Bool.false_or, Bool.false_and, Bool.or_false]
  · rw [if_pos (h1.2 b), if_neg (fun x => a (h0.1 x)), b, Bool.eq_false_iff.2 a]
    simp only [BitVec.getLsbD_or, Bool.true_and, hz, Bool.false_or, Bool.false_and]
  · rw [if_neg (fun x => b (h1.1 x)), if_neg (fun x => a (h0.1 x)), Bool.eq_false_iff.2 a, Bool.eq_false_iff.2 b]
    simp only [hz, Bool.false_and, Bool.or_false]

/-- Specification: the variables made with the fresh blocks `as`. -/
def creates : List Nat → Own → Own
  | [], o => o
  | a :: as, o => creates as (create a o)

theorem creates_list : ∀ (as : List Nat) (o : Own), (creates as o).list = o.list ++ as ∧ (creates as o).live = as.reverse ++ o.live := by
  intro as
  induction as with
  | nil => intro o; simp [creates]
  | cons a as ih => intro o; simp [creates, ih, create]

theorem deleteAll_perm : ∀ (as live rest : List Nat), live.Perm (as ++ rest) → ∃ l, deleteAll as live = some l ∧ l.Perm rest := by
  intro as
  induction as with
  | nil => intro live rest h; exact ⟨live, rfl, h⟩
  | cons a as ih =>
    intro live rest h
    have hm : a ∈ live := h.symm.subset (by simp)
    rw [deleteAll, if_pos hm]
    exact ih _ rest (by simpa using h.erase a)

/-- C83: the shutdown deletes each variable that Metamod made, once, and no other block. -/
theorem own_freed (as : List Nat) (live : List Nat) : ∃ o, shutdown (creates as ⟨[], live⟩) = some o ∧ o.live.Perm live := by
  obtain ⟨h1, h2⟩ := creates_list as ⟨[], live⟩
  obtain ⟨l, e, hl⟩ := deleteAll_perm as (creates as ⟨[], live⟩).live live (by
    rw [h2]; exact List.Perm.append_right _ (List.reverse_perm as))
  refine ⟨⟨as, l⟩, ?_, hl⟩
  unfold shutdown
  rw [h1]
  simp [e]

/-- Finding, core/provider/source2/provider_source2.cpp:152-155: the list is not cleared, so a second shutdown deletes the
variables again. -/
theorem shutdown_twice (a : Nat) (as : List Nat) : (shutdown (creates (a :: as) ⟨[], []⟩)).bind shutdown = none := by
  obtain ⟨h1, h2⟩ := creates_list (a :: as) ⟨[], []⟩
  obtain ⟨l, e, hl⟩ := deleteAll_perm (a :: as) (creates (a :: as) ⟨[], []⟩).live [] (by
    rw [h2]; exact List.Perm.append_right _ (List.reverse_perm _))
  have hl : l = [] := List.Perm.eq_nil hl
  subst hl
  unfold shutdown
  rw [h1]
  simp only [List.nil_append, e, Option.map_some, Option.bind_some]
  simp [deleteAll]

/-! ### Examples -/

/-- No counterpart in /repo: an engine with two commands, the second development-only, and valid variables. -/
def exSt : St := { cmd := fun c => ⟨if c = 9 then 6 else 4, true⟩, var := fun _ => ⟨true, true⟩ }

/-- The log of a plugin that registers, is unloaded, and is loaded again. -/
example : (told [.regCmd (some 0) 8, .regCmd (some 0) 9, .regVar (some 0) 7, .unregVar (some 0) 7, .unregCmd (some 0) 8, .regCmd (some 1) 8] exSt).cmd 8 = ⟨4, false⟩ := by
  decide
example : lastCmd 8 [.regCmd (some 0) 8, .unregCmd (some 0) 8] = some false := by decide
example : Hidden exSt 9 ∧ ¬ Hidden exSt 8 := by unfold Hidden exSt; decide
/-- The hypotheses of `listed_iff_shown_partial`: a plugin that registers, unregisters and registers again, with another one's calls between. -/
example : OneAtATime 10 8 false [.regCmd 10 8, .regCmd 11 9, .unregVar 11 7, .unregCmd 10 8, .regCmd 10 8] := by simp [OneAtATime]
example : CmdEnded 8 [.regCmd (some 0) 8, .unregCmd (some 0) 8] := ⟨some 0, by simp⟩
example : VarEnded 7 [.unregVar (some 0) 7] ∧ ¬ VarEnded 8 [.unregVar (some 0) 7] := by simp [VarEnded]
/-- The hypotheses of `unload_hides_partial`: the plugin of `Mgr.conExample`, which has a variable and a command. -/
example : Mgr.resCon 0 (Mgr.exec 10 (Mgr.conExample (.op (.unload 1 false) Mgr.yes (.ret true))) Mgr.init) =
    some ([], [], [.regVar (some 0) 7, .regCmd (some 0) 8, .regVar (some 0) 9, .unregVar (some 0) 7, .unregVar (some 0) 9, .unregCmd (some 0) 8]) := by rfl
example : toldOld 9 [.regVar (some 0) 32, .regCmd (some 0) 40] Cmd.exSt ≠ none := by simp [toldOld, tellOld]
example : newFlags 0x100 0x40 3 = 0x140 ∧ newFlags 0x100 0x40 2 = 0x40 := by decide
example : shutdown (creates [1, 2, 3] ⟨[], [9]⟩) = some ⟨[1, 2, 3], [9]⟩ := by decide
example : regBase false (fun c => c == 8) 10 8 = .regCmd 10 8 := rfl

#print axioms hidden_iff
#print axioms other_flags_kept
#print axioms cmd_callbacks
#print axioms var_state
#print axioms unload_hides_partial
#print axioms register_shows
#print axioms listed_iff_shown_partial
#print axioms unload_unlinks_partial
#print axioms base_round_trip
#print axioms base_kind
#print axioms base_source2
#print axioms register_reveals
#print axioms unlink_register_stays
#print axioms new_flags
#print axioms own_freed
#print axioms shutdown_twice

end Verif.Prov.Con
