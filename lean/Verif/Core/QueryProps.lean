import Verif.Core.Inv
import Verif.Mgr.EventProps
/-
C32: interface queries are offered to the listeners in order; the first
answer that is not NULL counts, else the real factory answers.
-/
namespace Verif.Core

open Verif.Mgr (Fault R Byte valueAt_mid nextAfter_mid)

/-- All listeners: plugins in list order, the listeners of each in the order they were added. -/
def listeners (s : St) : List Nat := s.plugs.flatMap fun p => p.events.map Prod.snd

/-! ### Whatever the listeners do -/

/-- Calls that were answered NULL. -/
def Nulls (c : Nat → Call) (t : Trace) : Prop := ∀ x ∈ t, (∃ l, x.1 = c l) ∧ x.2.1 = 0

/-- All answers NULL and no result, or the last answer is the result. -/
def Shape (c : Nat → Call) (t : Trace) (res : Option (Nat × Int × Nat)) : Prop :=
  (res = none ∧ Nulls c t) ∨ ∃ ts l a o, t = ts ++ [(c l, a)] ∧ Nulls c ts ∧ a.1 ≠ 0 ∧ res = some (a.1, a.2.getD 1, o)

theorem Nulls.append {c : Nat → Call} {a b : Trace} (h : Nulls c a) (g : Nulls c b) : Nulls c (a ++ b) := fun x hx =>
  (List.mem_append.1 hx).elim (h x) (g x)

theorem Shape.after {c : Nat → Call} {a b : Trace} {res : Option (Nat × Int × Nat)} (h : Nulls c a) (g : Shape c b res) : Shape c (a ++ b) res := by
  rcases g with ⟨g1, g2⟩ | ⟨ts, l, x, o, rfl, g2, g3, g4⟩
  · exact .inl ⟨g1, h.append g2⟩
  · exact .inr ⟨a ++ ts, l, x, o, by simp, h.append g2, g3, g4⟩

theorem askLoop_shape {h : Beh} {c : Nat → Call} {oid : Nat} (f : Nat) : ∀ {nd : Option Nat} {s : St} {t : Trace} {r : St × Trace × Option (Nat × Int × Nat)},
    askLoop h c oid f nd s t = .ok r → ∃ t', r.2.1 = t ++ t' ∧ Shape c t' r.2.2 := by
  induction f with
  | zero => intro nd s t r e; cases nd <;> cases e; exact ⟨[], by simp, .inl ⟨rfl, fun _ h => nomatch h⟩⟩
  | succ f ih =>
    intro nd s t r e
    cases nd with
    | none => cases e; exact ⟨[], by simp, .inl ⟨rfl, fun _ h => nomatch h⟩⟩
    | some nd =>
      obtain ⟨p, _, e⟩ := bind_ok e
      obtain ⟨l, _, e⟩ := bind_ok e
      obtain ⟨x, e1, e⟩ := bind_ok e
      dsimp only at e
      split at e
      · cases e
        exact ⟨[(c l, x.2)], rfl, .inr ⟨[], l, x.2, oid, rfl, (fun _ h => nomatch h), ‹_›, rfl⟩⟩
      · rename_i h0
        obtain ⟨p', _, e⟩ := bind_ok e
        obtain ⟨nx, _, e⟩ := bind_ok e
        obtain ⟨t', g1, g2⟩ := ih e
        refine ⟨(c l, x.2) :: t', by rw [g1]; simp, ?_⟩
        refine Shape.after (a := [(c l, x.2)]) (fun y hy => ?_) g2
        cases List.mem_singleton.1 hy
        exact ⟨⟨l, rfl⟩, by simpa using h0⟩

theorem askAll_shape {h : Beh} {fuel : Nat} {c : Nat → Call} (f : Nat) : ∀ {o : Option Nat} {s : St} {t : Trace} {r : St × Trace × Option (Nat × Int × Nat)},
    askAll h fuel c f o s t = .ok r → ∃ t', r.2.1 = t ++ t' ∧ Shape c t' r.2.2 := by
  induction f with
  | zero => intro nd s t r e; cases nd <;> cases e; exact ⟨[], by simp, .inl ⟨rfl, fun _ h => nomatch h⟩⟩
  | succ f ih =>
    intro nd s t r e
    cases nd with
    | none => cases e; exact ⟨[], by simp, .inl ⟨rfl, fun _ h => nomatch h⟩⟩
    | some nd =>
      obtain ⟨p, _, e⟩ := bind_ok e
      obtain ⟨x, e1, e⟩ := bind_ok e
      obtain ⟨t1, g1, g2⟩ := askLoop_shape _ e1
      split at e
      · rename_i a ha
        cases e
        rw [ha] at g2
        exact ⟨t1, g1, g2⟩
      · rename_i ha
        obtain ⟨nx, _, e⟩ := bind_ok e
        obtain ⟨t', k1, k2⟩ := ih e
        rw [ha] at g2
        rcases g2 with ⟨_, g2⟩ | ⟨_, _, _, _, _, _, _, g2⟩
        · exact ⟨t1 ++ t', by rw [k1, g1, List.append_assoc], Shape.after g2 k2⟩
        · cases g2

/-- C32, for every behaviour of the listeners, which may call anything: all but the last one asked answered NULL;
the last one is the first listener that did not, and its pointer and code are the result (the code is `META_IFACE_FAILED` if
the listener did not write any), or it is the real factory, asked once with the same arguments. -/
theorem query_answer {h : Beh} {fuel : Nat} {k : Kind} {name : List Byte} {ret : Bool} {s s' : St} {t : Trace} {v : Reply} (e : query h fuel k name ret s = .ok (s', t, v)) :
    ∃ ts last, t = ts ++ [last] ∧ (∀ x ∈ ts, (∃ l, x.1 = .ask k l name) ∧ x.2.1 = 0) ∧
      ((∃ l, last.1 = .ask k l name ∧ last.2.1 ≠ 0 ∧ v = (last.2.1, if ret then some (last.2.2.getD 1) else none)) ∨ (last.1 = .factory k name ret ∧ v = last.2)) := by
  obtain ⟨x, e1, e⟩ := bind_ok e
  obtain ⟨t1, g1, g2⟩ := askAll_shape _ e1
  split at e
  · rename_i a ha
    cases e
    rw [ha] at g2
    rcases g2 with ⟨g2, _⟩ | ⟨ts, l, a', o, h1, h2, h3, h4⟩
    · cases g2
    · cases h4
      exact ⟨ts, _, by rw [g1, h1]; rfl, h2, .inl ⟨l, rfl, h3, rfl⟩⟩
  · rename_i ha
    obtain ⟨y, e2, e⟩ := bind_ok e
    cases e
    rw [ha] at g2
    rcases g2 with ⟨_, g2⟩ | ⟨_, _, _, _, _, _, _, g2⟩
    · exact ⟨t1, _, by rw [g1]; rfl, g2, .inr ⟨rfl, rfl⟩⟩
    · cases g2

/-! ### Order -/

/-- External code leaves the lists alone; it may do everything else. -/
def SameLists (s s' : St) : Prop := s'.plugs = s.plugs

theorem sameLists_pre : Pre SameLists (fun _ => True) := ⟨fun _ => rfl, fun h g => g.trans h, fun _ => rfl⟩

theorem find_mid {a b : List Plug} {p : Plug} (h : p.oid ∉ a.map Plug.oid) : (a ++ p :: b).find? (fun q => q.oid == p.oid) = some p := by
  induction a with
  | nil => rw [List.nil_append, List.find?_cons_of_pos (by simp)]
  | cons x xs ih =>
    rw [List.map_cons, List.mem_cons, not_or] at h
    rw [List.cons_append, List.find?_cons_of_neg (by simpa using fun e => h.1 e.symm), ih h.2]

theorem get_mid {s : St} {a b : List Plug} {p : Plug} (hs : s.plugs = a ++ p :: b) (h : p.oid ∉ a.map Plug.oid) : s.get p.oid = .ok p := by
  unfold St.get
  rw [hs, find_mid h]

theorem nodup_mid {α : Type} {a b : List α} {x : α} (h : (a ++ x :: b).Nodup) : x ∉ a := fun hx => by
  rw [List.nodup_append] at h
  exact h.2.2 x hx x (List.mem_cons_self ..) rfl

theorem askLoop_order {h : Beh} (hh : ∀ c, At SameLists h c) {c : Nat → Call} {pa pb : List Plug} {p : Plug} (hp : p.oid ∉ pa.map Plug.oid)
    (hn : (p.events.map Prod.fst).Nodup) (evs : List (Nat × Nat)) : ∀ {f : Nat} {ea : List (Nat × Nat)} {s : St} {t : Trace} {r : St × Trace × Option (Nat × Int × Nat)},
    p.events = ea ++ evs → s.plugs = pa ++ p :: pb → askLoop h c p.oid f (evs.head?.map Prod.fst) s t = .ok r →
      r.1.plugs = s.plugs ∧ r.2.1.map Prod.fst <+: t.map Prod.fst ++ evs.map (c ∘ Prod.snd) ∧
        (r.2.2 = none → r.2.1.map Prod.fst = t.map Prod.fst ++ evs.map (c ∘ Prod.snd)) := by
  induction evs with
  | nil =>
    intro f ea s t r he hs e
    cases f <;> (cases e; simp)
  | cons ev evs ih =>
    intro f ea s t r he hs e
    cases f with
    | zero => cases e
    | succ f =>
      obtain ⟨q, e0, e⟩ := bind_ok e
      rw [get_mid hs hp] at e0
      cases e0
      obtain ⟨l, e0, e⟩ := bind_ok e
      have hne : ev.1 ∉ ea.map Prod.fst := by
        rw [he, List.map_append] at hn
        exact nodup_mid hn
      rw [he, valueAt_mid (v := ev.2) hne] at e0
      cases e0
      obtain ⟨x, e1, e⟩ := bind_ok e
      have hx : x.1.plugs = s.plugs := doCall_rel sameLists_pre (hh _) trivial (fun _ => trivial) e1
      dsimp only at e
      split at e
      · cases e
        refine ⟨hx, ?_, fun h => nomatch h⟩
        simp only [List.map_append, List.map_cons, List.map_nil, Function.comp]
        exact ⟨evs.map (fun y => c y.2), by simp⟩
      · obtain ⟨q, e0, e⟩ := bind_ok e
        rw [get_mid (hx.trans hs) hp] at e0
        cases e0
        obtain ⟨nx, e0, e⟩ := bind_ok e
        rw [he, List.map_append, List.map_cons, nextAfter_mid hne, List.head?_map] at e0
        cases e0
        obtain ⟨g1, g2, g3⟩ := ih (ea := ea ++ [ev]) (by rw [he]; simp) (hx.trans hs) e
        refine ⟨g1.trans hx, ?_, fun hr => ?_⟩
        · simpa using g2
        · simpa using g3 hr

theorem askAll_order {h : Beh} (hh : ∀ c, At SameLists h c) {c : Nat → Call} {fuel : Nat} (pb : List Plug) : ∀ {f : Nat} {pa : List Plug} {s : St} {t : Trace}
    {r : St × Trace × Option (Nat × Int × Nat)}, ((pa ++ pb).map Plug.oid).Nodup → (∀ p ∈ pb, (p.events.map Prod.fst).Nodup) → s.plugs = pa ++ pb → askAll h fuel c f (pb.head?.map Plug.oid) s t = .ok r →
      r.2.1.map Prod.fst <+: t.map Prod.fst ++ (pb.flatMap fun p => p.events.map Prod.snd).map c ∧
        (r.2.2 = none → r.2.1.map Prod.fst = t.map Prod.fst ++ (pb.flatMap fun p => p.events.map Prod.snd).map c) := by
  induction pb with
  | nil =>
    intro f pa s t r hw hn hs e
    cases f <;> (cases e; simp)
  | cons p pb ih =>
    intro f pa s t r hw hn hs e
    cases f with
    | zero => cases e
    | succ f =>
      have hp : p.oid ∉ pa.map Plug.oid := by
        rw [List.map_append] at hw
        exact nodup_mid hw
      obtain ⟨q, e0, e⟩ := bind_ok e
      rw [get_mid hs hp] at e0
      cases e0
      obtain ⟨x, e1, e⟩ := bind_ok e
      obtain ⟨g1, g2, g3⟩ := askLoop_order hh hp (hn p (List.mem_cons_self ..)) p.events (ea := []) rfl hs e1
      have hc : (p.events.map (c ∘ Prod.snd)) = (p.events.map Prod.snd).map c := by rw [List.map_map]
      rw [hc] at g2 g3
      rw [List.flatMap_cons, List.map_append, ← List.append_assoc]
      split at e
      · cases e
        exact ⟨g2.trans (List.prefix_append _ _), fun h => nomatch h⟩
      · rename_i hr
        obtain ⟨nx, e0, e⟩ := bind_ok e
        rw [g1, hs, List.map_append, List.map_cons, nextAfter_mid hp, List.head?_map] at e0
        cases e0
        have := ih (pa := pa ++ [p]) (by simpa using hw) (fun q hq => hn q (List.mem_cons_of_mem _ hq)) (by rw [g1, hs]; simp) e
        rw [g3 hr] at this
        exact this

/-- C32: as long as nobody changes the lists meanwhile, the listeners are asked in list order, each at most once; the factory
is asked only after all of them. -/
theorem query_order {h : Beh} (hh : ∀ c, At SameLists h c) {fuel : Nat} {k : Kind} {name : List Byte} {ret : Bool} {s s' : St} (hs : Reach s) {t : Trace} {v : Reply}
    (e : query h fuel k name ret s = .ok (s', t, v)) :
    (∃ n, t.map Prod.fst = ((listeners s).take n).map fun l => .ask k l name) ∨ t.map Prod.fst = ((listeners s).map fun l => .ask k l name) ++ [.factory k name ret] := by
  obtain ⟨x, e1, e⟩ := bind_ok e
  obtain ⟨g1, g2⟩ := askAll_order hh (c := fun l => .ask k l name) s.plugs (pa := []) hs.wf.oids hs.wf.nodes rfl e1
  rw [List.map_nil, List.nil_append] at g1 g2
  split at e
  · cases e
    obtain ⟨r, hr⟩ := g1
    refine .inl ⟨x.2.1.length, ?_⟩
    rw [List.map_take]
    show x.2.1.map Prod.fst = ((s.plugs.flatMap fun p => p.events.map Prod.snd).map _).take _
    rw [← hr]
    simp
  · rename_i hr
    obtain ⟨y, e2, e⟩ := bind_ok e
    cases e
    refine .inr ?_
    rw [List.map_append, g2 hr]
    rfl

/-! ### Listeners that only answer -/

/-- The listeners asked until one does not answer NULL. -/
def upTo (f : Nat → Bool) : List Nat → List Nat
  | [] => []
  | x :: xs => if f x then [x] else x :: upTo f xs

/-- The log of calls answered at once. -/
def plain (ans : Call → Reply) (cs : List Call) : List Ev := cs.flatMap fun c => [.call c, .ret c (ans c)]

/-- External code that only answers. -/
def answers (ans : Call → Reply) : Beh := fun c _ s => .ok (s, ans c)

/-- The state after plain calls. -/
def St.said (s : St) (ans : Call → Reply) (cs : List Call) : St := { s with log := s.log ++ plain ans cs }

theorem said_nil (s : St) (ans : Call → Reply) : s.said ans [] = s := by simp [St.said, plain]

theorem said_said (s : St) (ans : Call → Reply) (a b : List Call) : (s.said ans a).said ans b = s.said ans (a ++ b) := by simp [St.said, plain]

theorem doCall_answers (ans : Call → Reply) (c : Call) (s : St) : doCall (answers ans) c s = .ok (s.said ans [c], ans c) := by
  simp [doCall, answers, St.said, plain, St.note, bind, Except.bind]

def ansTrace (ans : Call → Reply) (cs : List Call) : Trace := cs.map fun c => (c, ans c)

theorem askLoop_plain {ans : Call → Reply} {c : Nat → Call} {pa pb : List Plug} {p : Plug} (hp : p.oid ∉ pa.map Plug.oid) (hn : (p.events.map Prod.fst).Nodup) (evs : List (Nat × Nat)) :
    ∀ {f : Nat} {ea : List (Nat × Nat)} {s : St} {t : Trace}, evs.length ≤ f → p.events = ea ++ evs → s.plugs = pa ++ p :: pb →
      askLoop (answers ans) c p.oid f (evs.head?.map Prod.fst) s t =
        .ok (s.said ans ((upTo (fun l => (ans (c l)).1 != 0) (evs.map Prod.snd)).map c), t ++ ansTrace ans ((upTo (fun l => (ans (c l)).1 != 0) (evs.map Prod.snd)).map c),
          ((evs.map Prod.snd).find? (fun l => (ans (c l)).1 != 0)).map fun l => ((ans (c l)).1, subret (ans (c l)), p.oid)) := by
  induction evs with
  | nil => intro f ea s t hf he hs; cases f <;> simp [askLoop, upTo, said_nil, ansTrace]
  | cons ev evs ih =>
    intro f ea s t hf he hs
    cases f with
    | zero => simp at hf
    | succ f =>
      have hne : ev.1 ∉ ea.map Prod.fst := by
        rw [he, List.map_append] at hn
        exact nodup_mid hn
      have hv : Mgr.valueAt ev.1 p.events = .ok ev.2 := by rw [he]; exact valueAt_mid (v := ev.2) hne
      have hx : Mgr.nextAfter ev.1 (p.events.map Prod.fst) = .ok (evs.head?.map Prod.fst) := by
        rw [he, List.map_append, List.map_cons, nextAfter_mid hne, List.head?_map]
      have hs' : (s.said ans [c ev.2]).plugs = pa ++ p :: pb := hs
      simp only [List.head?_cons, Option.map_some, askLoop, get_mid hs hp, hv, doCall_answers, bind, Except.bind, get_mid hs' hp, hx]
      by_cases h0 : (ans (c ev.2)).1 = 0
      · simp only [h0, ne_eq, not_true, if_false]
        rw [ih (ea := ea ++ [ev]) (by simpa using hf) (by rw [he]; simp) hs']
        simp [upTo, h0, said_said, ansTrace]
      · simp [h0, upTo, ansTrace]

theorem upTo_append (f : Nat → Bool) (a b : List Nat) : upTo f (a ++ b) = if a.any f then upTo f a else a ++ upTo f b := by
  induction a with
  | nil => simp
  | cons x xs ih =>
    have ha : (x :: xs).any f = (f x || xs.any f) := rfl
    rw [List.cons_append, upTo, ih, upTo]
    by_cases hx : f x = true
    · rw [if_pos hx, if_pos (by rw [ha, hx]; rfl), if_pos hx]
    · rw [if_neg hx, if_neg hx]
      by_cases hy : xs.any f = true
      · rw [if_pos hy, if_pos (by rw [ha, hy, Bool.or_true])]
      · rw [if_neg hy, if_neg (by rw [ha]; simp_all)]
        rfl

theorem any_of_find {f : Nat → Bool} {a : List Nat} {l : Nat} (h : a.find? f = some l) : a.any f = true :=
  List.any_eq_true.2 ⟨l, List.mem_of_find?_eq_some h, List.find?_some h⟩

theorem upTo_none {f : Nat → Bool} {a : List Nat} (h : a.find? f = none) : upTo f a = a ∧ a.any f = false := by
  rw [List.find?_eq_none] at h
  refine ⟨?_, by rw [List.any_eq_false]; exact h⟩
  induction a with
  | nil => rfl
  | cons x xs ih =>
    rw [upTo, if_neg (h x (List.mem_cons_self ..)), ih fun y hy => h y (List.mem_cons_of_mem _ hy)]

/-- The plugin of the answering listener. -/
def answerer (f : Nat → Bool) : List Plug → Option Plug
  | [] => none
  | p :: ps => if (p.events.map Prod.snd).any f then some p else answerer f ps

theorem askAll_plain {ans : Call → Reply} {c : Nat → Call} {fuel : Nat} (pb : List Plug) : ∀ {f : Nat} {pa : List Plug} {s : St} {t : Trace},
    ((pa ++ pb).map Plug.oid).Nodup → (∀ p ∈ pb, (p.events.map Prod.fst).Nodup) → (∀ p ∈ pb, p.events.length ≤ fuel) → pb.length ≤ f → s.plugs = pa ++ pb →
      askAll (answers ans) fuel c f (pb.head?.map Plug.oid) s t =
        .ok (s.said ans ((upTo (fun l => (ans (c l)).1 != 0) (pb.flatMap fun p => p.events.map Prod.snd)).map c),
          t ++ ansTrace ans ((upTo (fun l => (ans (c l)).1 != 0) (pb.flatMap fun p => p.events.map Prod.snd)).map c),
          ((pb.flatMap fun p => p.events.map Prod.snd).find? (fun l => (ans (c l)).1 != 0)).map fun l =>
            ((ans (c l)).1, subret (ans (c l)), ((answerer (fun l => (ans (c l)).1 != 0) pb).map Plug.oid).getD 0)) := by
  induction pb with
  | nil => intro f pa s t hw hn hl hf hs; cases f <;> simp [askAll, upTo, said_nil, ansTrace]
  | cons p pb ih =>
    intro f pa s t hw hn hl hf hs
    cases f with
    | zero => simp at hf
    | succ f =>
      have hp : p.oid ∉ pa.map Plug.oid := by
        rw [List.map_append] at hw
        exact nodup_mid hw
      simp only [List.head?_cons, Option.map_some, askAll, get_mid hs hp, bind, Except.bind]
      rw [askLoop_plain hp (hn p (List.mem_cons_self ..)) p.events (ea := []) (hl p (List.mem_cons_self ..)) rfl hs]
      cases hfind : (p.events.map Prod.snd).find? (fun l => (ans (c l)).1 != 0) with
      | some l =>
        have hany : (p.events.map Prod.snd).any (fun l => (ans (c l)).1 != 0) = true :=
          any_of_find hfind
        simp only [List.flatMap_cons, Option.map_some]
        rw [upTo_append, if_pos hany, List.find?_append, hfind]
        simp only [answerer, if_pos hany, Option.some_or, Option.map_some, Option.getD_some]
      | none =>
        obtain ⟨h1, h2⟩ := upTo_none hfind
        simp only [Option.map_none]
        have hx : Mgr.nextAfter p.oid ((s.said ans ((upTo (fun l => (ans (c l)).1 != 0) (p.events.map Prod.snd)).map c)).plugs.map Plug.oid) = .ok (pb.head?.map Plug.oid) := by
          show Mgr.nextAfter p.oid (s.plugs.map Plug.oid) = _
          rw [hs, List.map_append, List.map_cons, nextAfter_mid hp, List.head?_map]
        simp only [hx]
        rw [ih (pa := pa ++ [p]) (by simpa using hw) (fun q hq => hn q (List.mem_cons_of_mem _ hq)) (fun q hq => hl q (List.mem_cons_of_mem _ hq)) (by simpa using hf)
          (by show s.plugs = _; rw [hs]; simp)]
        simp only [List.flatMap_cons]
        rw [upTo_append, h2, h1, List.find?_append, hfind]
        simp [said_said, ansTrace, answerer, h2]

/-- Enough fuel for the lists of a state. -/
def Enough (fuel : Nat) (s : St) : Prop := s.plugs.length ≤ fuel ∧ ∀ p ∈ s.plugs, p.events.length ≤ fuel

/-- What a query returns, from the list of listeners and everybody's answers alone. -/
def result (ans : Call → Reply) (k : Kind) (name : List Byte) (ret : Bool) (ls : List Nat) : Reply :=
  match ls.find? (fun l => (ans (.ask k l name)).1 != 0) with
  | some l => ((ans (.ask k l name)).1, if ret then some ((ans (.ask k l name)).2.getD 1) else none)
  | none => ans (.factory k name ret)

/-- The calls it makes. -/
def resultCalls (ans : Call → Reply) (k : Kind) (name : List Byte) (ret : Bool) (ls : List Nat) : List Call :=
  (upTo (fun l => (ans (.ask k l name)).1 != 0) ls).map (fun l => .ask k l name) ++
    (if ls.any (fun l => (ans (.ask k l name)).1 != 0) then [] else [.factory k name ret])

/-- C32 for listeners that only answer: the query always returns, with the answer of the first listener in order that is not
NULL, else with the factory's; exactly these were called, nothing else changed. -/
theorem query_plain (ans : Call → Reply) {fuel : Nat} (k : Kind) (name : List Byte) (ret : Bool) {s : St} (hs : Reach s) (hf : Enough fuel s) :
    ∃ t, query (answers ans) fuel k name ret s = .ok ({ s with log := s.log ++ plain ans (resultCalls ans k name ret (listeners s)) }, t, result ans k name ret (listeners s)) := by
  unfold query
  rw [askAll_plain s.plugs (pa := []) hs.wf.oids hs.wf.nodes hf.2 hf.1 rfl]
  simp only [bind, Except.bind, result, resultCalls]
  show ∃ t, _ = _
  cases hfind : (listeners s).find? (fun l => (ans (.ask k l name)).1 != 0) with
  | some l =>
    have hfind' := hfind
    unfold listeners at hfind'
    have hany : (listeners s).any (fun l => (ans (.ask k l name)).1 != 0) = true := any_of_find hfind
    rw [hfind', if_pos hany]
    simp only [Option.map_some, List.append_nil]
    exact ⟨_, rfl⟩
  | none =>
    have hfind' := hfind
    unfold listeners at hfind'
    rw [hfind', (upTo_none hfind).2]
    simp only [Option.map_none, doCall_answers, said_said]
    exact ⟨_, rfl⟩

/-! ### `MetaFactory` -/

/-- C32: SourceHook (1), the plugin manager (2) and, on 32-bit systems, the hook manager generator (3) are answered without asking
anyone, with code `META_IFACE_OK` and no plugin. -/
theorem meta_own (h : Beh) (fuel : Nat) (x86 ret idp : Bool) (s : St) {name : List Byte} {p : Nat}
    (hn : (name = "ISourceHook".toUTF8.toList ∧ p = 1) ∨ (name = "IPluginManager".toUTF8.toList ∧ p = 2) ∨
      (x86 = true ∧ name = "IHookManagerAutoGen".toUTF8.toList ∧ p = 3)) :
    metaFactory h fuel x86 (some name) ret idp s = .ok (s, [], ⟨p, true, if ret then some 0 else none, if idp then some 0 else none⟩) := by
  have hp : own x86 name = p ∧ p ≠ 0 := by
    rcases hn with ⟨rfl, rfl⟩ | ⟨rfl, rfl⟩ | ⟨rfl, rfl, rfl⟩
    · exact ⟨by unfold own; rw [if_pos rfl], by simp⟩
    · refine ⟨?_, by simp⟩
      cases x86 <;> decide +kernel
    · exact ⟨by decide +kernel, by simp⟩
  unfold metaFactory
  dsimp only
  rw [if_pos (by rw [hp.1]; exact hp.2), hp.1]

/-- C32: these are the only names that are not offered to the listeners. -/
theorem meta_own_iff (x86 : Bool) (name : List Byte) : own x86 name ≠ 0 ↔
    name = "ISourceHook".toUTF8.toList ∨ name = "IPluginManager".toUTF8.toList ∨ (x86 = true ∧ name = "IHookManagerAutoGen".toUTF8.toList) := by
  unfold own
  split
  · simp [*]
  · split
    · simp [*]
    · split
      · simp_all
      · simp_all

/-- C32: a NULL name gets NULL; the code is not written. -/
theorem meta_null (h : Beh) (fuel : Nat) (x86 ret idp : Bool) (s : St) :
    metaFactory h fuel x86 none ret idp s = .ok (s, [], ⟨0, false, none, if idp then some 0 else none⟩) := rfl

/-- What `MetaFactory` answers for other names, from the plugins and everybody's answers alone. -/
def metaResult (ans : Call → Reply) (name : List Byte) (ret idp : Bool) (ps : List Plug) : MetaReply :=
  match (ps.flatMap fun p => p.events.map fun e => (e.2, p.id)).find? (fun x => (ans (.askMeta x.1 name)).1 != 0) with
  | some x => ⟨(ans (.askMeta x.1 name)).1, false, if ret then some ((ans (.askMeta x.1 name)).2.getD 1) else none, if idp then some x.2 else none⟩
  | none => ⟨0, false, if ret then some 1 else none, if idp then some 0 else none⟩

theorem answerer_find {f : Nat → Bool} (ps : List Plug) : (ps.flatMap fun p => p.events.map fun e => (e.2, p.id)).find? (fun x => f x.1) =
    match (ps.flatMap fun p => p.events.map Prod.snd).find? f, answerer f ps with
    | some l, some p => some (l, p.id)
    | _, _ => none := by
  induction ps with
  | nil => rfl
  | cons p ps ih =>
    simp only [List.flatMap_cons, List.find?_append, answerer]
    have hl : (p.events.map fun e => (e.2, p.id)).find? (fun x => f x.1) = ((p.events.map Prod.snd).find? f).map fun l => (l, p.id) := by
      generalize p.events = evs
      induction evs with
      | nil => rfl
      | cons e es ihe =>
        simp only [List.map_cons, List.find?_cons]
        cases f e.2 <;> simp [ihe]
    rw [hl]
    cases hfind : (p.events.map Prod.snd).find? f with
    | some l =>
      have hany : (p.events.map Prod.snd).any f = true := any_of_find hfind
      simp [hany]
    | none =>
      rw [(upTo_none hfind).2]
      simp [ih]

theorem answerer_mem {f : Nat → Bool} {ps : List Plug} {p : Plug} (h : answerer f ps = some p) : p ∈ ps := by
  induction ps with
  | nil => cases h
  | cons q qs ih =>
    unfold answerer at h
    split at h
    · cases h; exact List.mem_cons_self ..
    · exact List.mem_cons_of_mem _ (ih h)

theorem answerer_some {f : Nat → Bool} {ps : List Plug} {l : Nat} (h : (ps.flatMap fun p => p.events.map Prod.snd).find? f = some l) : (answerer f ps).isSome = true := by
  induction ps with
  | nil => cases h
  | cons q qs ih =>
    unfold answerer
    split
    · rfl
    · rename_i hq
      rw [List.flatMap_cons, List.find?_append] at h
      have : (q.events.map Prod.snd).find? f = none := by
        rw [List.find?_eq_none]
        intro x hx hfx
        exact hq (List.any_eq_true.2 ⟨x, hx, hfx⟩)
      rw [this] at h
      exact ih (by simpa using h)

theorem get_mem {s : St} (hw : Wf s) {p : Plug} (hp : p ∈ s.plugs) : s.get p.oid = .ok p := by
  obtain ⟨a, b, hab⟩ := List.append_of_mem hp
  refine get_mid hab ?_
  have := hw.oids
  rw [hab, List.map_append] at this
  exact nodup_mid this

/-- C32 for `MetaFactory` and listeners that only answer: every other name is answered by the first listener in order with its code and
the id of its plugin, else NULL, `META_IFACE_FAILED` and no plugin. -/
theorem meta_plain (ans : Call → Reply) {fuel : Nat} (x86 : Bool) {name : List Byte} (hn : own x86 name = 0) (ret idp : Bool) {s : St} (hs : Reach s) (hf : Enough fuel s) :
    ∃ t, metaFactory (answers ans) fuel x86 (some name) ret idp s =
      .ok ({ s with log := s.log ++ plain ans ((upTo (fun l => (ans (.askMeta l name)).1 != 0) (listeners s)).map fun l => .askMeta l name) }, t, metaResult ans name ret idp s.plugs) := by
  unfold metaFactory
  dsimp only
  rw [if_neg (by simp [hn])]
  rw [askAll_plain s.plugs (pa := []) hs.wf.oids hs.wf.nodes hf.2 hf.1 rfl]
  simp only [bind, Except.bind, metaResult]
  rw [answerer_find (f := fun l => (ans (.askMeta l name)).1 != 0)]
  cases hfind : (s.plugs.flatMap fun p => p.events.map Prod.snd).find? (fun l => (ans (.askMeta l name)).1 != 0) with
  | none => exact ⟨_, rfl⟩
  | some l =>
    have ha := answerer_some hfind
    cases hp : answerer (fun l => (ans (.askMeta l name)).1 != 0) s.plugs with
    | none => rw [hp] at ha; cases ha
    | some p =>
      simp only [Option.map_some, Option.getD_some]
      have hg : (s.said ans ((upTo (fun l => (ans (.askMeta l name)).1 != 0) (s.plugs.flatMap fun p => p.events.map Prod.snd)).map fun l => .askMeta l name)).get p.oid = .ok p :=
        get_mem (s := s) hs.wf (answerer_mem hp)
      unfold metaId
      cases idp
      · exact ⟨_, rfl⟩
      · simp only [hg, if_true, bind, Except.bind]
        exact ⟨_, rfl⟩

/-! ### Examples -/

/-- Two plugins, the second with two listeners. -/
def two : Scr := .op (.addPlugin 4) (fun _ _ => .ret (0, none)) fun _ => .op (.addPlugin 6) (fun _ _ => .ret (0, none)) fun _ =>
  .op (.addListener 1 10) (fun _ _ => .ret (0, none)) fun _ => .op (.addListener 0 11) (fun _ _ => .ret (0, none)) fun _ => .op (.addListener 1 12) (fun _ _ => .ret (0, none)) fun _ => .ret (0, none)

def twoSt : St := { init with plugs := [⟨0, 4, [(3, 11)]⟩, ⟨1, 6, [(2, 10), (4, 12)]⟩], next := 5 }

theorem two_reach : Reach twoSt := ⟨0, two, (0, none), rfl⟩

/-- Listeners 10 and 12 have an answer; 12 gives a code too. -/
def someAns : Call → Reply
  | .ask _ 10 _ => (70, none)
  | .ask _ 12 _ => (71, some 0)
  | .askMeta 12 _ => (71, some 0)
  | .factory _ _ _ => (5, some 0)
  | _ => (0, some 1)

example : Enough 2 twoSt ∧ listeners twoSt = [11, 10, 12] ∧ result someAns .engine [65] true (listeners twoSt) = (70, some 1) ∧
    resultCalls someAns .engine [65] true (listeners twoSt) = [.ask .engine 11 [65], .ask .engine 10 [65]] ∧
    result someAns .engine [65] true [11, 9] = (5, some 0) ∧ metaResult someAns [65] true true twoSt.plugs = ⟨71, false, some 0, some 6⟩ ∧ own true [65] = 0 := by
  refine ⟨⟨by decide, by decide⟩, by decide, by decide, by decide, by decide, by decide, by decide +kernel⟩

/-- For `query_answer` and `query_order`. -/
example : (∀ c, At SameLists (answers someAns) c) ∧ ∃ s' t v, query (answers someAns) 2 .engine [65] true twoSt = .ok (s', t, v) := by
  refine ⟨fun c n s s' a e => by cases e; rfl, ?_⟩
  obtain ⟨t, h⟩ := query_plain someAns .engine [65] true two_reach (fuel := 2) ⟨by decide, by decide⟩
  exact ⟨_, t, _, h⟩

def resFault {α : Type} : R α → Option Fault
  | .ok _ => none
  | .error f => some f

/-- A listener that unloads its plugin and has no answer: the loop goes on with the freed node. -/
theorem query_unload_dangling : resFault (exec 9 (.op (.query .engine [65] true) (fun c _ => if c = .ask .engine 11 [65] then
    .op (.dropPlugin 0) (fun _ _ => .ret (0, none)) (fun _ => .ret (0, none)) else .ret (0, none)) fun _ => .ret (0, none)) twoSt) = some .dangling := by
  decide +kernel

#print axioms query_answer
#print axioms query_order
#print axioms query_plain
#print axioms meta_own
#print axioms meta_own_iff
#print axioms meta_null
#print axioms meta_plain
#print axioms query_unload_dangling

end Verif.Core
