import Verif.Sample.Sample
import Verif.Util.MiscProps
/-
C103: the sample plugins ask for every interface before they touch anything; the handlers of the sample for the first Source engine.
-/
namespace Verif.Sample
open Verif.C Verif.SH.TakeBack

/-! ### lemmas -/

private theorem tell_ok (error : Option Buf) (maxlen : Nat) (t : List Byte) (h : ∀ b, error = some b → maxlen ≤ b.length) :
    ∃ b, tell error maxlen t = .ok b := by
  cases error with
  | none => exact ⟨none, rfl⟩
  | some b =>
    by_cases h0 : maxlen = 0
    · exact ⟨some b, by simp [tell, h0]⟩
    · obtain ⟨b', e, _⟩ := Util.format_spec (b := b) (n := maxlen) (by omega) (h b rfl)
        (bytes "Could not find interface: " ++ t) []
      refine ⟨some b', ?_⟩
      simp only [tell, if_neg h0, e, bind, Except.bind]

private theorem tell_text {b : Buf} {n : Nat} (hn : 1 ≤ n) (hb : n ≤ b.length) (t : List Byte) :
    tell (some b) n t = .ok (some ((bytes "Could not find interface: " ++ t).take (n - 1) ++
      0 :: b.drop (min (bytes "Could not find interface: " ++ t).length (n - 1) + 1))) := by
  obtain ⟨b', e, hb'⟩ := Util.format_spec (b := b) hn hb (bytes "Could not find interface: " ++ t) []
  have h0 : ¬ n = 0 := by omega
  simp only [tell, if_neg h0, e, bind, Except.bind, hb']

private theorem getAll_all (w : World) (error : Option Buf) (n : Nat) :
    ∀ (gs : List Get) (v : Vars), (∀ g ∈ gs, w.find g.fac g.name g.any ≠ 0) →
      ∃ v', getAll w error n gs v = .ok (v', true, error)
  | [], v, _ => ⟨v, rfl⟩
  | g :: gs, v, h => by
    have hg := h g (by simp)
    obtain ⟨v', e⟩ := getAll_all w error n gs (fun x => if x = g.var then w.find g.fac g.name g.any else v x)
      (fun g hg => h g (by simp [hg]))
    exact ⟨v', by simp only [getAll, if_neg hg, e]⟩

private theorem getAll_pre (w : World) (error : Option Buf) (n : Nat) (g : Get) (post : List Get)
    (hg : w.find g.fac g.name g.any = 0) :
    ∀ (gs : List Get) (v : Vars), (∀ g ∈ gs, w.find g.fac g.name g.any ≠ 0) →
      ∃ v', getAll w error n (gs ++ g :: post) v = (do
        let b ← tell error n (w.text g.name)
        .ok (v', false, b)) ∧ v' g.var = 0
  | [], v, _ => ⟨fun x => if x = g.var then w.find g.fac g.name g.any else v x,
      by simp only [List.nil_append, getAll, if_pos hg], by simp [hg]⟩
  | a :: gs, v, h => by
    have ha := h a (by simp)
    obtain ⟨v', e, z⟩ := getAll_pre w error n g post hg gs (fun x => if x = a.var then w.find a.fac a.name a.any else v x)
      (fun g hg => h g (by simp [hg]))
    exact ⟨v', by simp only [List.cons_append, getAll, if_neg ha, e], z⟩

private theorem split_first (p : Get → Prop) [DecidablePred p] : ∀ gs : List Get, ¬ (∀ g ∈ gs, p g) →
    ∃ pre g post, gs = pre ++ g :: post ∧ (∀ a ∈ pre, p a) ∧ ¬ p g
  | [], h => absurd (by simp) h
  | g :: gs, h => by
    by_cases hp : p g
    · have h' : ¬ ∀ g ∈ gs, p g := fun k => h (by
        intro x hx
        rcases List.mem_cons.1 hx with rfl | hx
        · exact hp
        · exact k x hx)
      obtain ⟨pre, x, post, e, hpre, hx⟩ := split_first p gs h'
      refine ⟨g :: pre, x, post, by simp [e], ?_, hx⟩
      intro a ha
      rcases List.mem_cons.1 ha with rfl | ha
      · exact hp
      · exact hpre a ha
    · exact ⟨[], g, gs, rfl, by simp, hp⟩

/-- Variables keep what they were given if no later line names them. -/
private theorem getAll_var (w : World) (error : Option Buf) (n : Nat) :
    ∀ (gs : List Get) (v v' : Vars) (b : Option Buf), getAll w error n gs v = .ok (v', true, b) →
      (gs.map Get.var).Nodup →
      (∀ g ∈ gs, v' g.var = w.find g.fac g.name g.any ∧ v' g.var ≠ 0) ∧ ∀ x, x ∉ gs.map Get.var → v' x = v x
  | [], v, v', b, h, _ => by
    simp only [getAll] at h
    have := Except.ok.inj h
    simp only [Prod.mk.injEq] at this
    simp [this.1]
  | g :: gs, v, v', b, h, nd => by
    simp only [getAll] at h
    by_cases hg : w.find g.fac g.name g.any = 0
    · rw [if_pos hg] at h
      cases ht : tell error n (w.text g.name) with
      | error e => rw [ht] at h; simp [bind, Except.bind] at h
      | ok b' => rw [ht] at h; simp [bind, Except.bind] at h
    · rw [if_neg hg] at h
      simp only [List.map_cons, List.nodup_cons] at nd
      obtain ⟨h1, h2⟩ := getAll_var w error n gs _ v' b h nd.2
      have hv : v' g.var = w.find g.fac g.name g.any := by rw [h2 g.var nd.1]; simp
      refine ⟨?_, ?_⟩
      · intro a ha
        rcases List.mem_cons.1 ha with rfl | ha
        · exact ⟨hv, by rw [hv]; exact hg⟩
        · exact h1 a ha
      · intro x hx
        simp only [List.map_cons, List.mem_cons, not_or] at hx
        rw [h2 x hx.2, if_neg hx.1]

/-! ## C103: Load -/

/-- C103: with an error buffer as long as it is said to be (or none), `Load` is defined whatever the game has, and it returns
true exactly if every interface it asks for is there. -/
theorem load_true_iff (gets : List Get) (pre : World → List Ev) (ls : List Line) (w : World) (error : Option Buf) (n : Nat)
    (v : Vars) (h : ∀ b, error = some b → n ≤ b.length) :
    ∃ v' ok b evs, load gets pre ls w error n v = .ok (v', ok, b, evs) ∧
      (ok = true ↔ ∀ g ∈ gets, w.find g.fac g.name g.any ≠ 0) := by
  by_cases ha : ∀ g ∈ gets, w.find g.fac g.name g.any ≠ 0
  · obtain ⟨v', e⟩ := getAll_all w error n gets v ha
    exact ⟨v', true, error, pre w ++ hooks v' ls, by simp [load, e, bind, Except.bind],
      ⟨fun _ => ha, fun _ => rfl⟩⟩
  · obtain ⟨p, g, post, rfl, hp, hg⟩ := split_first (fun g => w.find g.fac g.name g.any ≠ 0) gets ha
    obtain ⟨v', e, _⟩ := getAll_pre w error n g post (by simpa using hg) p v hp
    obtain ⟨b, ht⟩ := tell_ok error n (w.text g.name) h
    refine ⟨v', false, b, [], by simp [load, e, ht, bind, Except.bind], ?_⟩
    simp only [Bool.false_eq_true, false_iff]
    exact ha

/-- C103: if some interface is missing, `Load` returns false having added no hook and no listener, the variable of the first
missing one is NULL, and the buffer holds the first `n - 1` characters of "Could not find interface: " and its name, with a NUL;
what lies behind the NUL is unchanged. -/
theorem load_fails (p post : List Get) (g : Get) (pre : World → List Ev) (ls : List Line) (w : World) (b : Buf) (n : Nat) (v : Vars)
    (hn : 1 ≤ n) (hb : n ≤ b.length) (hp : ∀ a ∈ p, w.find a.fac a.name a.any ≠ 0) (hg : w.find g.fac g.name g.any = 0) :
    ∃ v', load (p ++ g :: post) pre ls w (some b) n v =
        .ok (v', false, some ((bytes "Could not find interface: " ++ w.text g.name).take (n - 1) ++
          0 :: b.drop (min (bytes "Could not find interface: " ++ w.text g.name).length (n - 1) + 1)), []) ∧
      v' g.var = 0 := by
  obtain ⟨v', e, z⟩ := getAll_pre w (some b) n g post hg p v hp
  refine ⟨v', ?_, z⟩
  simp [load, e, tell_text hn hb, bind, Except.bind]

/-- C103: without a buffer, or with one of size 0, the failing `Load` writes nothing, and likewise adds nothing. -/
theorem load_fails_silently (p post : List Get) (g : Get) (pre : World → List Ev) (ls : List Line) (w : World) (error : Option Buf)
    (n : Nat) (v : Vars) (h : error = none ∨ n = 0) (hp : ∀ a ∈ p, w.find a.fac a.name a.any ≠ 0)
    (hg : w.find g.fac g.name g.any = 0) :
    ∃ v', load (p ++ g :: post) pre ls w error n v = .ok (v', false, error, []) := by
  obtain ⟨v', e, _⟩ := getAll_pre w error n g post hg p v hp
  refine ⟨v', ?_⟩
  have ht : tell error n (w.text g.name) = .ok error := by
    rcases h with rfl | rfl
    · rfl
    · cases error <;> simp [tell]
  simp [load, e, ht, bind, Except.bind]

/-- Specification: the name under which the class of a hook line is asked for. No counterpart in /repo. -/
def ifaceName : String → Option String
  | "IServerGameDLL" => some "INTERFACEVERSION_SERVERGAMEDLL"
  | "IServerGameClients" => some "INTERFACEVERSION_SERVERGAMECLIENTS"
  | _ => none

/-- Specification: the hooks among what was done. No counterpart in /repo. -/
def hooked : List Ev → List (Nat × Line)
  | [] => []
  | .hook _ a l :: r => (a, l) :: hooked r
  | _ :: r => hooked r

private theorem hooked_append : ∀ a b : List Ev, hooked (a ++ b) = hooked a ++ hooked b
  | [], _ => rfl
  | .hook _ _ _ :: a, b => by simp [hooked, hooked_append a b]
  | .addListener :: a, b => by simp [hooked, hooked_append a b]
  | .enableVsp :: a, b => by simp [hooked, hooked_append a b]

private theorem hooked_hooks (v : Vars) : ∀ ls : List Line, hooked (hooks v ls) = ls.map fun l => (v (Ptr.var l.ptr), l)
  | [] => rfl
  | l :: ls => by
    have := hooked_hooks v ls
    simp only [hooks] at this
    simp [hooks, hooked, this]

private theorem load_ok {gets : List Get} {pre : World → List Ev} {ls : List Line} {w : World} {error : Option Buf} {n : Nat}
    {v v' : Vars} {b : Option Buf} {evs : List Ev} (h : load gets pre ls w error n v = .ok (v', true, b, evs)) :
    getAll w error n gets v = .ok (v', true, b) ∧ evs = pre w ++ hooks v' ls := by
  unfold load at h
  cases hg : getAll w error n gets v with
  | error e => rw [hg] at h; simp [bind, Except.bind] at h
  | ok r =>
    obtain ⟨v1, ok, b1⟩ := r
    rw [hg] at h
    simp only [bind, Except.bind] at h
    have := Except.ok.inj h
    simp only [Prod.mk.injEq] at this
    obtain ⟨rfl, rfl, rfl, h4⟩ := this
    simp at h4
    exact ⟨rfl, h4.symm⟩

private theorem table : samples.all (fun s => decide ((s.1.map Get.var).Nodup) && s.2.2.all (fun l => s.1.any fun g =>
    decide (g.var = Ptr.var l.ptr) && decide (g.fac = Fac.server) && g.any && decide (ifaceName l.iface = some g.name))) = true := by
  decide +kernel

private theorem pre_hooks (w : World) : ∀ s ∈ samples, hooked (s.2.1 w) = [] := by
  intro s hs
  simp only [samples, List.mem_cons, List.mem_nil_iff, or_false] at hs
  rcases hs with rfl | rfl | rfl
  · simp only [s1Listen]; split <;> rfl
  · rfl
  · rfl

/-- C103: if a sample's `Load` returns true, it has added all of its hooks in the order of the source, and each to the object the
game's factory gave for the very interface the hook was declared with; none of these is NULL. -/
theorem samples_hook_right {s : List Get × (World → List Ev) × List Line} (hs : s ∈ samples) {w : World} {error : Option Buf} {n : Nat}
    {v v' : Vars} {b : Option Buf} {evs : List Ev} (h : load s.1 s.2.1 s.2.2 w error n v = .ok (v', true, b, evs)) :
    (hooked evs).map Prod.snd = s.2.2 ∧
    ∀ a l, (a, l) ∈ hooked evs → a ≠ 0 ∧ ∃ name, ifaceName l.iface = some name ∧ a = w.find .server name true := by
  obtain ⟨hg, rfl⟩ := load_ok h
  have ht := List.all_eq_true.1 table s hs
  simp only [Bool.and_eq_true, decide_eq_true_eq, List.all_eq_true, List.any_eq_true] at ht
  obtain ⟨nd, hl⟩ := ht
  obtain ⟨h1, _⟩ := getAll_var w error n s.1 v v' b hg nd
  rw [hooked_append, pre_hooks w s hs, List.nil_append, hooked_hooks]
  refine ⟨by simp [Function.comp_def], ?_⟩
  intro a l hal
  obtain ⟨l', hl', e⟩ := List.mem_map.1 hal
  simp only [Prod.mk.injEq] at e
  obtain ⟨rfl, rfl⟩ := e
  obtain ⟨g, hgm, ⟨⟨e1, e2⟩, e3⟩, e4⟩ := hl l' hl'
  obtain ⟨k1, k2⟩ := h1 g hgm
  rw [← e1]
  exact ⟨k2, g.name, e4, by rw [k1, e2, e3]⟩

private theorem same_hooks : samples.map (·.2.2) = SH.TakeBack.samples.map (·.1) := rfl

private theorem all_paired : ∀ s ∈ SH.TakeBack.samples, ∀ l ∈ s.1, l ∈ s.2 := by decide +kernel

/-- C103: every hook the `Load` of a sample has added is taken back by a line of the `Unload` of the same sample (`u`, C100). -/
theorem samples_unloadable {i : Nat} {s : List Get × (World → List Ev) × List Line} (hs : samples[i]? = some s)
    {u : List Line × List Line} (hu : SH.TakeBack.samples[i]? = some u) {w : World} {error : Option Buf} {n : Nat}
    {v v' : Vars} {b : Option Buf} {evs : List Ev} (h : load s.1 s.2.1 s.2.2 w error n v = .ok (v', true, b, evs)) :
    ∀ a l, (a, l) ∈ hooked evs → l ∈ u.2 := by
  intro a l hal
  have h1 := (samples_hook_right (List.mem_of_getElem? hs) h).1
  have h2 : s.2.2 = u.1 := by
    have := congrArg (·[i]?) same_hooks
    simpa [hs, hu] using this
  refine all_paired u (List.mem_of_getElem? hu) l ?_
  rw [← h2, ← h1]
  exact List.mem_map.2 ⟨(a, l), hal, rfl⟩

example : ∃ s u, samples[1]? = some s ∧ SH.TakeBack.samples[1]? = some u ∧ s.2.2 ≠ [] := ⟨_, _, rfl, rfl, by decide +kernel⟩

/-- C103: the first sample listens for the server plugin's callbacks exactly if Metamod has none yet, once, and before its hooks;
the sample for the second engine always adds itself as listener once; the stub never. -/
theorem samples_listen {w : World} {error : Option Buf} {n : Nat} {v v' : Vars} {b : Option Buf} {evs : List Ev} :
    (load s1Gets s1Listen s1Load w error n v = .ok (v', true, b, evs) →
      evs.count .addListener = (if w.vsp = 0 then 1 else 0) ∧ evs.count .enableVsp = (if w.vsp = 0 then 1 else 0) ∧
      (w.vsp = 0 → evs.take 2 = [.addListener, .enableVsp])) ∧
    (load s2Gets (fun _ => [.addListener]) s2Load w error n v = .ok (v', true, b, evs) →
      evs.count .addListener = 1 ∧ evs.count .enableVsp = 0) ∧
    (load stubGets (fun _ => []) stubLoad w error n v = .ok (v', true, b, evs) →
      evs.count .addListener = 0 ∧ evs.count .enableVsp = 0) := by
  have hz : ∀ (ls : List Line), (hooks v' ls).count .addListener = 0 ∧ (hooks v' ls).count .enableVsp = 0 := by
    intro ls
    constructor <;> (rw [List.count_eq_zero]; simp [hooks])
  refine ⟨fun h => ?_, fun h => ?_, fun h => ?_⟩
  · obtain ⟨_, rfl⟩ := load_ok h
    rw [List.count_append, List.count_append, (hz _).1, (hz _).2]
    by_cases h0 : w.vsp = 0
    · simp only [s1Listen, if_pos h0]
      exact ⟨by decide, by decide, fun _ => rfl⟩
    · simp only [s1Listen, if_neg h0]
      exact ⟨rfl, rfl, fun k => absurd k h0⟩
  · obtain ⟨_, rfl⟩ := load_ok h
    rw [List.count_append, List.count_append, (hz _).1, (hz _).2]
    exact ⟨by decide, by decide⟩
  · obtain ⟨_, rfl⟩ := load_ok h
    rw [List.count_append, List.count_append, (hz _).1, (hz _).2]
    exact ⟨rfl, rfl⟩

/-- A game with every interface, and one without the player information. No counterpart in /repo: examples. -/
def full : World := ⟨fun _ s _ => s.length, fun s => bytes s, 0⟩

/-- A game without the player information. No counterpart in /repo: an example. -/
def lacking : World := ⟨fun _ s _ => if s = "INTERFACEVERSION_PLAYERINFOMANAGER" then 0 else 5, fun _ => bytes "Pl1", 7⟩

example : ∀ g ∈ s1Gets, full.find g.fac g.name g.any ≠ 0 := by decide +kernel

example : (match load s1Gets s1Listen s1Load full none 0 (fun _ => 0) with
    | .ok (_, ok, _, evs) => ok && evs.length == 13 | .error _ => false) = true := by decide +kernel

example : (match load s1Gets s1Listen s1Load lacking (some (List.replicate 40 1)) 20 (fun _ => 0) with
    | .ok (_, ok, b, evs) => !ok && evs.isEmpty && (b == some (bytes "Could not find inte" ++ 0 :: List.replicate 20 1))
    | .error _ => false) = true := by decide +kernel

/-! ## C103: the handlers -/

/-- C103: the command of a player is taken from the game exactly if the entity is there and in use and the command is one of the
four, in just that spelling; otherwise nothing at all is done. -/
theorem command_superseded_iff (entity : Option Bool) (cmd : List Byte) (id : Nat) :
    ((clientCommand entity cmd id).1 = .supercede ↔
      entity = some false ∧ cmd ∈ [bytes "menu", bytes "rich", bytes "msg", bytes "entry"]) ∧
    ((clientCommand entity cmd id).1 = .ignored → (clientCommand entity cmd id).2 = []) := by
  cases entity with
  | none => simp [clientCommand]
  | some f =>
    cases f with
    | true => simp [clientCommand]
    | false =>
      by_cases h1 : cmd = bytes "menu"
      · simp [clientCommand, h1]
      by_cases h2 : cmd = bytes "rich"
      · simp only [clientCommand, if_neg h1, if_pos h2]; simp [h2]
      by_cases h3 : cmd = bytes "msg"
      · simp only [clientCommand, if_neg h1, if_neg h2, if_pos h3]; simp [h3]
      by_cases h4 : cmd = bytes "entry"
      · simp only [clientCommand, if_neg h1, if_neg h2, if_neg h3, if_pos h4]; simp [h4]
      simp only [clientCommand, if_neg h1, if_neg h2, if_neg h3, if_neg h4]
      simp [h1, h2, h3, h4]

/-- Specification: what may be done with a `KeyValues`: `live` are the ones made and not yet deleted; using any other is wrong.
Result: those left at the end. No counterpart in /repo. -/
def run : List Nat → List Act → Option (List Nat)
  | live, [] => some live
  | live, .make i :: r => if i ∈ live then none else run (i :: live) r
  | live, .item i _ _ _ :: r => if i ∈ live then run live r else none
  | live, .send i _ :: r => if i ∈ live then run live r else none
  | live, .delete i :: r => if i ∈ live then run (live.erase i) r else none
  | live, .print _ :: r => run live r

/-- Specification: the dialogs shown. No counterpart in /repo. -/
def shown : List Act → List Dialog
  | [] => []
  | .send _ d :: r => d :: shown r
  | _ :: r => shown r

private theorem items_run (id : Nat) (live : List Nat) (r : List Act) (h : id ∈ live) :
    ∀ n i, run live (items id n i ++ r) = run live r
  | 0, _ => rfl
  | n + 1, i => by simp only [items, List.cons_append, run, if_pos h]; exact items_run id live r h n (i + 1)

private theorem dialog_run (id : Nat) (live : List Nat) (h : id ∉ live) (n i : Nat) (d : Dialog) :
    run live (dialog id (items id n i) d) = some live := by
  unfold dialog
  rw [List.cons_append]
  simp only [run, if_neg h]
  rw [items_run id (id :: live) _ (by simp)]
  simp [run]

/-- C103: whatever is called, no handler uses a dialog it has not made or has deleted, and it leaves none behind: as many are live
afterwards as before. -/
theorem handlers_leave_none (live : List Nat) (id : Nat) (h : id ∉ live) (entity : Option Bool) (cmd : List Byte) :
    run live (clientCommand entity cmd id).2 = some live ∧ run live (clientPutInServer id).2 = some live := by
  refine ⟨?_, dialog_run id live h 0 0 .msg⟩
  unfold clientCommand
  split
  · rfl
  · rfl
  · split
    · exact dialog_run id live h 8 1 _
    · split
      · exact dialog_run id live h 0 0 _
      · split
        · exact dialog_run id live h 0 0 _
        · split
          · exact dialog_run id live h 0 0 _
          · rfl

/-- C103: each of the four commands shows one dialog, of its own kind; a player put in the server is shown one message. -/
theorem command_shows (id : Nat) :
    shown (clientCommand (some false) (bytes "menu") id).2 = [.menu] ∧
    shown (clientCommand (some false) (bytes "rich") id).2 = [.text] ∧
    shown (clientCommand (some false) (bytes "msg") id).2 = [.msg] ∧
    shown (clientCommand (some false) (bytes "entry") id).2 = [.entry] ∧
    shown (clientPutInServer id).2 = [.msg] ∧ (clientPutInServer id).1 = .ignored := by
  have n1 : bytes "rich" ≠ bytes "menu" := by decide
  have n2 : bytes "msg" ≠ bytes "menu" := by decide
  have n3 : bytes "msg" ≠ bytes "rich" := by decide
  have n4 : bytes "entry" ≠ bytes "menu" := by decide
  have n5 : bytes "entry" ≠ bytes "rich" := by decide
  have n6 : bytes "entry" ≠ bytes "msg" := by decide
  refine ⟨?_, ?_, ?_, ?_, rfl, rfl⟩
  · simp [clientCommand, dialog, items, shown]
  · simp only [clientCommand, if_neg n1, if_true]; rfl
  · simp only [clientCommand, if_neg n2, if_neg n3, if_true]; rfl
  · simp only [clientCommand, if_neg n4, if_neg n5, if_neg n6, if_true]; rfl

/-- Specification: the items put into a dialog. No counterpart in /repo. -/
def itemsOf : List Act → List (List Byte × List Byte × List Byte)
  | [] => []
  | .item _ a b c :: r => (a, b, c) :: itemsOf r
  | _ :: r => itemsOf r

/-- C103: the menu has the eight items 1 to 8, each with its own number, label and command, none of them cut. -/
theorem menu_items (id : Nat) :
    itemsOf (clientCommand (some false) (bytes "menu") id).2 =
      (List.range' 1 8).map fun i => (bytes (toString i), bytes ("Option " ++ toString i), bytes ("option " ++ toString i)) := by
  have : itemsOf (clientCommand (some false) (bytes "menu") id).2 = itemsOf (items 0 8 1) := by
    simp [clientCommand, dialog, items, itemsOf]
  rw [this]
  decide +kernel

example : clientCommand (some false) (bytes "Menu") 3 = (.ignored, []) ∧ clientCommand (some true) (bytes "menu") 3 = (.ignored, []) :=
  by decide +kernel

/-- C103: the handler of changed settings prints exactly one text if there is an information with a name, the player is no bot and
the two names are equal, and otherwise none. -/
theorem settings_print_iff (manager : Bool) (info : Option (Option (List Byte))) (name : Option (List Byte)) (netid : List Byte) :
    (settingsChanged manager info name netid ≠ [] ↔
      manager = true ∧ netid ≠ bytes "BOT" ∧ ∃ x, info = some (some x) ∧ name = some x) ∧
    (settingsChanged manager info name netid).length ≤ 1 := by
  cases manager with
  | false => simp [settingsChanged]
  | true =>
    unfold settingsChanged
    simp only [if_true]
    split
    · rename_i old new
      by_cases h : netid ≠ bytes "BOT" ∧ new = old
      · rw [if_pos h]
        refine ⟨⟨fun _ => ⟨trivial, h.1, old, rfl, by rw [h.2]⟩, fun _ => by simp⟩, by simp⟩
      · rw [if_neg h]
        refine ⟨⟨fun k => absurd rfl k, ?_⟩, by simp⟩
        rintro ⟨_, h1, x, e1, e2⟩
        simp only [Option.some.injEq] at e1 e2
        exact absurd ⟨h1, by rw [e1, e2]⟩ h
    · rename_i hne
      refine ⟨⟨fun k => absurd rfl k, ?_⟩, by simp⟩
      rintro ⟨_, _, x, rfl, rfl⟩
      exact (hne x x rfl rfl).elim

/-- C103, finding: the sample tells players "Your name changed to …" only when it did not change (the comparison with the known name
is `== 0`, samples/s1_sample_mm/sample_mm.cpp:240): a change is never reported, and any other setting a person changes brings the
message with the same name twice. -/
theorem name_change_reversed (old new netid : List Byte) :
    (new ≠ old → settingsChanged true (some (some old)) (some new) netid = []) ∧
    (netid ≠ bytes "BOT" → settingsChanged true (some (some old)) (some old) netid =
      [.print ((bytes "Your name changed to \"" ++ old ++ bytes "\" (from \"" ++ old ++ bytes "\")\n").take 127)]) := by
  refine ⟨fun h => ?_, fun h => ?_⟩
  · simp [settingsChanged, h]
  · simp only [settingsChanged, if_true]
    rw [if_pos ⟨h, trivial⟩]

example : settingsChanged true (some (some (bytes "Ann"))) (some (bytes "Bob")) (bytes "STEAM_0:1") = [] ∧
    settingsChanged true (some (some (bytes "Ann"))) (some (bytes "Ann")) (bytes "STEAM_0:1") =
      [.print (bytes "Your name changed to \"Ann\" (from \"Ann\")\n")] := by decide +kernel

#print axioms load_true_iff
#print axioms load_fails
#print axioms load_fails_silently
#print axioms samples_hook_right
#print axioms samples_unloadable
#print axioms samples_listen
#print axioms command_superseded_iff
#print axioms handlers_leave_none
#print axioms command_shows
#print axioms menu_items
#print axioms settings_print_iff
#print axioms name_change_reversed

end Verif.Sample
