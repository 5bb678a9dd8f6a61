import Verif.Gen.Context
/-
Helper lemmas for `ContextProps`: the loop of `BuildProtoInfo`, deletion, and the invariant of the table.
-/
namespace Verif.Gen

open Verif.SH (PassInfo Proto ProtoInfo paramLoop)

/-! ## The copy -/

theorem copyLoop_spec (ps : List PassInfo) : ∀ (n i : Nat) (la : List (Option Rec)) (lb : List (Option Ctors)),
    i + n = ps.length → la.length = ps.length + 1 → lb.length = ps.length + 1 →
    copyLoop ps n i la lb = some (la.take (i + 1) ++ (ps.drop i).map (fun p => some (recOf p)),
      lb.take (i + 1) ++ (ps.drop i).map (fun p => some (ctorsOf p)))
  | 0, i, la, lb, h, ha, hb => by
    have e : ps.drop i = [] := List.drop_eq_nil_of_le (by omega)
    rw [copyLoop, e, List.take_of_length_le (by omega), List.take_of_length_le (by omega)]
    simp
  | n + 1, i, la, lb, h, ha, hb => by
    have hi : i < ps.length := by omega
    have e : ps.drop i = ps[i] :: ps.drop (i + 1) := List.drop_eq_getElem_cons hi
    rw [copyLoop, List.getElem?_eq_getElem hi]
    simp only []
    rw [copyLoop_spec ps n (i + 1) _ _ (by omega) (by simp [ha]) (by simp [hb]), e]
    have t : ∀ {α : Type} (l : List α) (x : α), l.length = ps.length + 1 →
        (l.set (i + 1) x).take (i + 1 + 1) = l.take (i + 1) ++ [x] := by
      intro α l x hl
      rw [List.take_add_one, List.take_set_of_le (Nat.le_refl _)]
      congr 1
      rw [List.getElem?_set_self (by omega)]
      rfl
    rw [t la _ ha, t lb _ hb]
    simp only [List.map_cons, List.append_assoc, List.singleton_append]

/-- No counterpart in /repo: the arrays `BuildProtoInfo` leaves, core/sourcehook/sourcehook_hookmangen_x86.cpp:101-119. -/
def passesOf (p : Proto) : List (Option Rec) := some ⟨1, 0, 0⟩ :: p.params.map fun q => some (recOf q)
/-- No counterpart in /repo: the arrays `BuildProtoInfo` leaves, core/sourcehook/sourcehook_hookmangen_x86.cpp:104-119. -/
def ctorsArr (p : Proto) : List (Option Ctors) := none :: p.params.map fun q => some (ctorsOf q)
/-- No counterpart in /repo: the record `BuildProtoInfo` leaves, core/sourcehook/sourcehook_hookmangen_x86.cpp:88-97, 121-122. -/
def infoOf (p : Proto) (a b : Nat) : Info :=
  { num := p.numParams, ret := recOf p.ret, params := a, convention := p.convention, ret2 := ctorsOf p.ret, params2 := b }

theorem copy_all (p : Proto) (h : p.numParams.toNat = p.params.length) :
    copyLoop p.params p.numParams.toNat 0
      ((List.replicate (p.numParams.toNat + 1) none).set 0 (some ⟨1, 0, 0⟩))
      (List.replicate (p.numParams.toNat + 1) none) = some (passesOf p, ctorsArr p) := by
  rw [copyLoop_spec p.params _ 0 _ _ (by omega) (by simp [h]) (by simp [h])]
  simp [passesOf, ctorsArr, List.replicate_succ]

theorem readParams_spec (ps : List PassInfo) (x : Option Rec) (y : Option Ctors) :
    ∀ (n k : Nat), k + n = ps.length →
    readParams (x :: ps.map fun q => some (recOf q)) (y :: ps.map fun q => some (ctorsOf q)) n (k + 1)
      = some (ps.drop k)
  | 0, k, h => by rw [readParams, List.drop_eq_nil_of_le (by omega)]
  | n + 1, k, h => by
    have hk : k < ps.length := by omega
    rw [readParams]
    simp only [List.getElem?_cons_succ, List.getElem?_map, List.getElem?_eq_getElem hk, Option.map_some]
    rw [readParams_spec ps x y n (k + 1) (by omega)]
    simp only []
    rw [List.drop_eq_getElem_cons hk]
    rfl

/-! ## Memory -/

/-- No counterpart in /repo: memory without a block. -/
def Mem.free (m : Mem) (a : Nat) : Mem := { m with blocks := fun x => if x = a then none else m.blocks x }

theorem delete_ok {m : Mem} {a : Nat} {b : Block} {arr : Bool} (h : m.blocks a = some b) (hb : b.isArray = arr) :
    m.delete arr a = .ok (m.free a) := by
  unfold Mem.delete
  rw [h]
  simp only [hb, if_true]
  rfl

@[simp] theorem free_blocks (m : Mem) (a x : Nat) : (m.free a).blocks x = if x = a then none else m.blocks x := rfl
@[simp] theorem free_next (m : Mem) (a : Nat) : (m.free a).next = m.next := rfl

/-- No counterpart in /repo: the blocks a context owns, core/sourcehook/sourcehook_hookmangen_x86.h:1628-1634. -/
def owned (c : Ctx) : List Nat := [c.hi, c.vfn, c.built] ++ (c.params.toList ++ c.params2.toList)

/-- No counterpart in /repo: the memory of a context for which code was generated. -/
structure Holds (m : Mem) (c : Ctx) (a b : Nat) : Prop where
  ea : c.params = some a
  eb : c.params2 = some b
  hi : m.blocks c.hi = some .ptr
  vfn : m.blocks c.vfn = some .ptr
  built : m.blocks c.built = some (.info (some (infoOf c.proto a b)))
  pa : m.blocks a = some (.passes (passesOf c.proto))
  pb : m.blocks b = some (.ctors (ctorsArr c.proto))
  count : c.proto.numParams.toNat = c.proto.params.length

/-- No counterpart in /repo: a context of the table. -/
structure Own (g : Gen) (m : Mem) (x : Ctx × Nat) : Prop where
  pub : x.1.pub ≠ 0
  refs : 0 < x.2
  version : x.1.orig.version = 1
  count : x.1.orig.numParams.toNat = x.1.orig.params.length
  proto : x.1.proto = g.detect x.1.orig
  holds : ∃ a b, Holds m x.1 a b

theorem Holds.owned {m : Mem} {c : Ctx} {a b : Nat} (h : Holds m c a b) : owned c = [c.hi, c.vfn, c.built, a, b] := by
  simp [Gen.owned, h.ea, h.eb]

theorem Holds.frame {m m' : Mem} {c : Ctx} {a b : Nat} (h : Holds m c a b)
    (e : ∀ x ∈ Gen.owned c, m'.blocks x = m.blocks x) : Holds m' c a b := by
  rw [h.owned] at e
  exact ⟨h.ea, h.eb, by rw [e _ (by simp)]; exact h.hi, by rw [e _ (by simp)]; exact h.vfn,
    by rw [e _ (by simp)]; exact h.built, by rw [e _ (by simp)]; exact h.pa, by rw [e _ (by simp)]; exact h.pb, h.count⟩

theorem Own.frame {g : Gen} {m m' : Mem} {x : Ctx × Nat} (h : Own g m x)
    (e : ∀ y ∈ Gen.owned x.1, m'.blocks y = m.blocks y) : Own g m' x := by
  obtain ⟨a, b, hh⟩ := h.holds
  exact ⟨h.pub, h.refs, h.version, h.count, h.proto, a, b, hh.frame e⟩

/-- No counterpart in /repo: what the destructor frees. -/
def freed (g : Gen) (c : Ctx) : List Nat :=
  [c.hi, c.vfn, c.built] ++ if g.clears then c.params.toList ++ c.params2.toList else []

theorem destroy_ok (g : Gen) {c : Ctx} {m : Mem} {a b : Nat} (h : Holds m c a b) (hn : (owned c).Nodup) :
    ∃ m', destroy g c m = .ok m' ∧ m'.next = m.next ∧
      ∀ x, m'.blocks x = if x ∈ freed g c then none else m.blocks x := by
  rw [h.owned] at hn
  simp only [List.nodup_cons, List.mem_cons, List.not_mem_nil, or_false, not_or] at hn
  obtain ⟨⟨n1, n2, n3, n4⟩, ⟨n5, n6, n7⟩, ⟨n8, n9⟩, n10, -⟩ := hn
  unfold destroy freed
  cases hc : g.clears
  · simp only [Bool.false_eq_true, if_false]
    rw [delete_ok (arr := false) h.hi rfl]
    simp only []
    rw [delete_ok (arr := false) (b := .ptr) (by rw [free_blocks, if_neg (fun e => n1 e.symm)]; exact h.vfn) rfl]
    simp only []
    rw [delete_ok (arr := false) (b := .info (some (infoOf c.proto a b)))
      (by rw [free_blocks, if_neg (fun e => n5 e.symm), free_blocks, if_neg (fun e => n2 e.symm)]; exact h.built) rfl]
    refine ⟨_, rfl, rfl, fun x => ?_⟩
    simp only [free_blocks, List.append_nil, List.mem_cons, List.not_mem_nil, or_false]
    by_cases e1 : x = c.hi
    · simp [e1]
    · by_cases e2 : x = c.vfn
      · simp [e2]
      · by_cases e3 : x = c.built
        · simp [e3]
        · simp [e1, e2, e3]
  · simp only [if_true, clear, drop, h.ea, h.eb]
    rw [delete_ok (arr := true) h.pa rfl]
    simp only []
    rw [delete_ok (arr := true) (b := .ctors (ctorsArr c.proto)) (by rw [free_blocks, if_neg (fun e => n10 e.symm)]; exact h.pb) rfl]
    simp only []
    rw [delete_ok (arr := false) (b := .ptr) (by rw [free_blocks, if_neg n4, free_blocks, if_neg n3]; exact h.hi) rfl]
    simp only []
    rw [delete_ok (arr := false) (b := .ptr) (by
      rw [free_blocks, if_neg (fun e => n1 e.symm), free_blocks, if_neg n7, free_blocks, if_neg n6]; exact h.vfn) rfl]
    simp only []
    rw [delete_ok (arr := false) (b := .info (some (infoOf c.proto a b))) (by
      rw [free_blocks, if_neg (fun e => n5 e.symm), free_blocks, if_neg (fun e => n2 e.symm), free_blocks, if_neg n9,
        free_blocks, if_neg n8]; exact h.built) rfl]
    refine ⟨_, rfl, rfl, fun x => ?_⟩
    simp only [free_blocks, Option.toList, List.cons_append, List.nil_append, List.mem_cons, List.not_mem_nil, or_false]
    by_cases e1 : x = c.hi
    · simp [e1]
    · by_cases e2 : x = c.vfn
      · simp [e2]
      · by_cases e3 : x = c.built
        · simp [e3]
        · by_cases e4 : x = a
          · simp [e4]
          · by_cases e5 : x = b
            · simp [e5]
            · simp [e1, e2, e3, e4, e5]

/-! ## A new context -/

/-- No counterpart in /repo: the generator completes flags and nothing else that is counted. -/
structure Gen.Ok (g : Gen) : Prop where
  version : ∀ p, (g.detect p).version = p.version
  num : ∀ p, (g.detect p).numParams = p.numParams
  len : ∀ p, (g.detect p).params.length = p.params.length

/-- No counterpart in /repo: the offsets of variables of these sizes, each below the one before, from `o` on. -/
def offsets : Int → List Nat → List Int
  | _, [] => []
  | o, n :: ns => (o - n) :: offsets (o - n) ns

theorem addVars_offsets : ∀ (l : List Nat) (c : Ctx), (addVars c l).2 = offsets c.frameOff l
  | [], _ => rfl
  | n :: ns, c => by
    simp only [addVars, offsets]
    rw [addVars_offsets ns]
    rfl

theorem addVars_ctx : ∀ (l : List Nat) (c : Ctx), ∃ o z, (addVars c l).1 = { c with frameOff := o, frameSize := z }
  | [], c => ⟨c.frameOff, c.frameSize, rfl⟩
  | n :: ns, c => by
    obtain ⟨o, z, h⟩ := addVars_ctx ns (addVar c n).1
    exact ⟨o, z, by simp only [addVars]; rw [h]; rfl⟩

/-- No counterpart in /repo: nothing lies beyond the addresses given out. -/
def Fresh (m : Mem) : Prop := ∀ a, m.next ≤ a → m.blocks a = none

/-- The two ways a new context can come out of `GetPubFunc`. -/
theorem new_ctx (g : Gen) (hg : g.Ok) (p : Proto) (offs idx : Int) (code : Nat) (m : Mem)
    (hp : 1 ≤ p.version → p.numParams.toNat = p.params.length ∧ 0 ≤ p.numParams) :
    (∃ m' c, getPubFunc g (construct p offs idx m).2 code (construct p offs idx m).1 = .ok (m', c, none) ∧
      m' = (construct p offs idx m).1 ∧ c.pub = 0 ∧ c.hi = m.next ∧ c.vfn = m.next + 1 ∧ c.built = m.next + 2 ∧
      c.params = none ∧ c.params2 = none) ∨
    (∃ m' c l, getPubFunc g (construct p offs idx m).2 code (construct p offs idx m).1 = .ok (m', c, some l) ∧
      1 ≤ p.version ∧ c.pub = code ∧ c.orig = p ∧ c.proto = g.detect p ∧ l = offsets 0 (g.vars (g.detect p)) ∧
      c.hi = m.next ∧ c.vfn = m.next + 1 ∧ c.built = m.next + 2 ∧
      Holds m' c (m.next + 3) (m.next + 4) ∧ m'.next = m.next + 5 ∧
      (∀ x, m.next + 5 ≤ x ∨ x < m.next → m'.blocks x = m.blocks x)) := by
  by_cases hv : p.version < 1
  · refine .inl ⟨_, { (construct p offs idx m).2 with pub := 0 }, ?_, rfl, ?_⟩
    · simp only [getPubFunc, construct, Mem.alloc, generate, clear, drop, if_true, hv]
    · exact ⟨rfl, rfl, rfl, rfl, rfl, rfl⟩
  · by_cases ht : g.takes (g.detect p) = true
    · obtain ⟨h1, h2⟩ := hp (by omega)
      have hc := copy_all (g.detect p) (by rw [hg.num, hg.len]; exact h1)
      have hn : ¬ (g.detect p).numParams < 0 := by rw [hg.num]; omega
      right
      simp only [getPubFunc, construct, Mem.alloc, generate, clear, drop, if_true, hv, if_false, ht, buildProtoInfo, hn, hc]
      refine ⟨_, _, _, rfl, by omega, rfl, ?_⟩
      generalize hC : Ctx.mk p (g.detect p) offs idx 0 (m.next + 1 + 1) (some (m.next + 1 + 1 + 1))
        (some (m.next + 1 + 1 + 1 + 1)) m.next (m.next + 1) 0 0 = C
      obtain ⟨o, z, e⟩ := addVars_ctx (g.vars (g.detect p)) C
      have e2 := addVars_offsets (g.vars (g.detect p)) C
      subst hC
      simp only [e, e2]
      refine ⟨trivial, trivial, trivial, trivial, trivial, trivial, ⟨rfl, rfl, ?_, ?_, ?_, ?_, ?_, ?_⟩, rfl, ?_⟩
      · simp only [Mem.put]
        rw [if_neg (by omega), if_neg (by omega), if_neg (by omega), if_neg (by omega), if_neg (by omega), if_neg (by omega),
          if_neg (by omega), if_pos (by trivial)]
      · simp only [Mem.put]
        rw [if_neg (by omega), if_neg (by omega), if_neg (by omega), if_neg (by omega), if_neg (by omega), if_neg (by omega),
          if_pos (by trivial)]
      · simp only [Mem.put, infoOf]
        rw [if_pos (by trivial)]
      · simp only [Mem.put]
        rw [if_neg (by omega), if_neg (by omega), if_pos (by trivial)]
      · simp only [Mem.put]
        rw [if_neg (by omega), if_pos (by trivial)]
      · rw [hg.num, hg.len]; exact h1
      · intro x hx
        simp only [Mem.put]
        have n0 : ¬ x = m.next := by omega
        have n1 : ¬ x = m.next + 1 := by omega
        have n2 : ¬ x = m.next + 1 + 1 := by omega
        have n3 : ¬ x = m.next + 1 + 1 + 1 := by omega
        have n4 : ¬ x = m.next + 1 + 1 + 1 + 1 := by omega
        simp only [n0, n1, n2, n3, n4, if_false]
    · refine .inl ⟨_, { (construct p offs idx m).2 with proto := g.detect p, pub := 0 }, ?_, rfl, ?_⟩
      · simp only [getPubFunc, construct, Mem.alloc, generate, clear, drop, if_true, hv, if_false, ht, Bool.false_eq_true]
      · exact ⟨rfl, rfl, rfl, rfl, rfl, rfl⟩

/-- No counterpart in /repo: what a caller must give: as many records as it says. -/
def Readable (pi : ProtoInfo) : Prop := 0 ≤ pi.numOfParams ∧ pi.numOfParams.toNat ≤ pi.params.length

theorem fill_ok {pi : ProtoInfo} (h : Readable pi) : ∃ p, Proto.fill default pi = some p ∧
    (p.version = 1 ∨ p.version < 1) ∧ (1 ≤ p.version → p.numParams.toNat = p.params.length ∧ 0 ≤ p.numParams) := by
  unfold Proto.fill
  by_cases h0 : pi.dummySize = 0
  · simp only [h0, if_true, h.2]
    exact ⟨_, rfl, .inr (by show (0 : Int) < 1; omega), fun hh => absurd hh (by show ¬ (1 : Int) ≤ 0; omega)⟩
  · by_cases h1 : pi.dummySize = 1
    · simp only [h1, if_true, h.2]
      refine ⟨_, rfl, .inl rfl, fun _ => ⟨?_, h.1⟩⟩
      simp [Nat.min_eq_left h.2]
    · simp only [h0, h1, if_false]
      exact ⟨_, rfl, .inr (by show (-1 : Int) < 1; omega), fun hh => absurd hh (by show ¬ (1 : Int) ≤ -1; omega)⟩

theorem paramLoop_some (f : PassInfo → PassInfo → Bool) : ∀ (n : Nat) (a b : List PassInfo),
    n ≤ a.length → n ≤ b.length → ∃ r, paramLoop f n a b = some r
  | 0, _, _, _, _ => ⟨_, rfl⟩
  | n + 1, [], _, h, _ => absurd h (by simp)
  | n + 1, _ :: _, [], _, h => absurd h (by simp)
  | n + 1, a :: as, b :: bs, ha, hb => by
    rw [paramLoop]
    split
    · exact paramLoop_some f n as bs (by simpa using ha) (by simpa using hb)
    · exact ⟨_, rfl⟩

theorem same_some {g : Gen} {m : Mem} {x : Ctx × Nat} (h : Own g m x) {p : Proto}
    (hp : 1 ≤ p.version → p.numParams.toNat = p.params.length ∧ 0 ≤ p.numParams) (offs idx : Int) :
    ∃ r, x.1.same p offs idx = some r := by
  unfold Ctx.same
  have : ∃ r, Proto.exactlyEqual? x.1.orig p = some r := by
    unfold Proto.exactlyEqual?
    split
    · exact ⟨_, rfl⟩
    · rename_i hh
      simp only [not_or, Decidable.not_not] at hh
      have h1 := hp (by rw [← hh.1, h.version]; omega)
      exact paramLoop_some _ _ _ _ (by rw [h.count]; omega) (by rw [hh.2.1]; omega)
  obtain ⟨r, hr⟩ := this
  rw [hr]
  cases r <;> exact ⟨_, rfl⟩

theorem findCtx_ok {g : Gen} {m : Mem} {p : Proto}
    (hp : 1 ≤ p.version → p.numParams.toNat = p.params.length ∧ 0 ≤ p.numParams) (offs idx : Int) :
    ∀ (l : List (Ctx × Nat)) (i : Nat), (∀ x ∈ l, Own g m x) →
    findCtx p offs idx l i = .ok none ∨ ∃ k, findCtx p offs idx l i = .ok (some (i + k)) ∧ k < l.length
  | [], _, _ => .inl rfl
  | c :: cs, i, h => by
    obtain ⟨r, hr⟩ := same_some (h c (by simp)) hp offs idx
    rw [findCtx, hr]
    cases r
    · rcases findCtx_ok hp offs idx cs (i + 1) (fun x hx => h x (by simp [hx])) with e | ⟨k, e, hk⟩
      · exact .inl e
      · exact .inr ⟨k + 1, by rw [show i + (k + 1) = i + 1 + k by omega]; exact e, by simp; omega⟩
    · exact .inr ⟨0, rfl, by simp⟩

theorem findPub_spec (pub : Nat) : ∀ (l : List (Ctx × Nat)), findPub pub l = none ∨
    ∃ a x b, findPub pub l = some (a, x, b) ∧ l = a ++ x :: b
  | [] => .inl rfl
  | c :: cs => by
    rw [findPub]
    split
    · exact .inr ⟨[], c, cs, rfl, rfl⟩
    · rcases findPub_spec pub cs with e | ⟨a, x, b, e, h⟩
      · exact .inl (by rw [e])
      · exact .inr ⟨c :: a, x, b, by rw [e], by rw [h]; rfl⟩

/-! ## The invariant -/

/-- No counterpart in /repo: everything owned. -/
def allOwned (l : List (Ctx × Nat)) : List Nat := l.flatMap fun x => owned x.1

/-- No counterpart in /repo: the invariant of the table. -/
structure Inv (g : Gen) (s : Sys) : Prop where
  own : ∀ x ∈ s.ctxs, Own g s.mem x
  nodup : (allOwned s.ctxs ++ s.lost).Nodup
  live : ∀ a, s.mem.blocks a ≠ none ↔ a ∈ allOwned s.ctxs ∨ a ∈ s.lost
  fresh : Fresh s.mem
  frames : ∀ f ∈ s.frames, f.2 = offsets 0 (g.vars f.1)
  lost : g.clears = true → s.lost = []

theorem inv_init (g : Gen) : Inv g Sys.init :=
  ⟨by simp [Sys.init], by simp [Sys.init, allOwned], by simp [Sys.init, allOwned], fun _ _ => rfl, by simp [Sys.init],
    fun _ => rfl⟩

theorem left_freed (g : Gen) (c : Ctx) : List.Perm (owned c) (freed g c ++ left g c) := by
  unfold owned freed left
  cases g.clears <;> simp

/-- Destroying the context in the middle of the table. -/
theorem inv_destroy {g : Gen} {s : Sys} (hi : Inv g s) {a b : List (Ctx × Nat)} {x : Ctx × Nat}
    (e : s.ctxs = a ++ x :: b) :
    ∃ m, destroy g x.1 s.mem = .ok m ∧ Inv g { s with mem := m, ctxs := a ++ b, lost := s.lost ++ left g x.1 } := by
  have hx : Own g s.mem x := hi.own x (by rw [e]; simp)
  obtain ⟨pa, pb, hh⟩ := hx.holds
  have hperm : List.Perm (allOwned s.ctxs ++ s.lost) (freed g x.1 ++ (allOwned (a ++ b) ++ (s.lost ++ left g x.1))) := by
    have h1 : allOwned s.ctxs = allOwned a ++ (owned x.1 ++ allOwned b) := by rw [e]; simp [allOwned]
    have h2 : allOwned (a ++ b) = allOwned a ++ allOwned b := by simp [allOwned]
    rw [h1, h2]
    refine List.perm_iff_count.2 fun n => ?_
    have h3 := List.perm_iff_count.1 (left_freed g x.1) n
    simp only [List.count_append] at h3 ⊢
    omega
  have hnd := hperm.nodup_iff.1 hi.nodup
  have hno : (owned x.1).Nodup := by
    have : (allOwned s.ctxs).Nodup := (List.nodup_append.1 hi.nodup).1
    rw [e] at this
    simp only [allOwned, List.flatMap_append, List.flatMap_cons] at this
    exact (List.nodup_append.1 (List.nodup_append.1 this).2.1).1
  obtain ⟨m', hd, hnext, hbl⟩ := destroy_ok g hh hno
  refine ⟨m', hd, ?_⟩
  obtain ⟨-, hr, hdisj⟩ := List.nodup_append.1 hnd
  have hmem : ∀ y, y ∈ allOwned (a ++ b) → y ∉ freed g x.1 := fun y hy hf => hdisj y hf y (by simp [hy]) rfl
  refine ⟨fun y hy => ?_, hr, fun z => ?_, fun z hz => ?_, hi.frames, fun hc => ?_⟩
  · refine (hi.own y (by rw [e]; simp only [List.mem_append, List.mem_cons] at hy ⊢; rcases hy with h | h <;> simp [h])).frame
      fun z hz => ?_
    show m'.blocks z = _
    rw [hbl, if_neg (hmem z (List.mem_flatMap.2 ⟨y, hy, hz⟩))]
  · show m'.blocks z ≠ none ↔ _
    rw [hbl]
    have hm : (z ∈ allOwned s.ctxs ∨ z ∈ s.lost) ↔ (z ∈ freed g x.1 ∨ (z ∈ allOwned (a ++ b) ∨ z ∈ s.lost ++ left g x.1)) := by
      have := hperm.mem_iff (a := z)
      simpa only [List.mem_append] using this
    by_cases hf : z ∈ freed g x.1
    · rw [if_pos hf]
      refine ⟨fun h => absurd rfl h, fun h => ?_⟩
      have : z ∈ allOwned (a ++ b) ++ (s.lost ++ left g x.1) := List.mem_append.2 h
      exact absurd rfl (hdisj z hf z this)
    · rw [if_neg hf, hi.live, hm]
      exact ⟨fun h => h.resolve_left hf, .inr⟩
  · show m'.blocks z = none
    rw [hbl]
    split
    · rfl
    · exact hi.fresh z (by rw [← hnext]; exact hz)
  · show s.lost ++ left g x.1 = []
    rw [hi.lost hc, left, if_pos hc]
    rfl

theorem inv_release {g : Gen} {s : Sys} (hi : Inv g s) (pub : Nat) :
    ∃ s', release g pub s = .ok s' ∧ Inv g s' := by
  unfold release
  rcases findPub_spec pub s.ctxs with e | ⟨a, ⟨c, n⟩, b, e, h⟩
  · rw [e]; exact ⟨s, rfl, hi⟩
  · rw [e]
    simp only []
    by_cases h0 : n - 1 = 0
    · obtain ⟨m, hd, hinv⟩ := inv_destroy hi h
      rw [if_pos h0, hd]
      exact ⟨_, rfl, hinv⟩
    · rw [if_neg h0]
      refine ⟨_, rfl, ?_⟩
      have hal : allOwned (a ++ (c, n - 1) :: b) = allOwned s.ctxs := by rw [h]; simp [allOwned]
      refine ⟨fun y hy => ?_, by rw [hal]; exact hi.nodup, by rw [hal]; exact hi.live, hi.fresh, hi.frames, hi.lost⟩
      have hy' : y ∈ a ∨ y = (c, n - 1) ∨ y ∈ b := by simpa using hy
      rcases hy' with h1 | h1 | h1
      · exact hi.own y (by rw [h]; simp [h1])
      · have := hi.own (c, n) (by rw [h]; simp)
        subst h1
        exact ⟨this.pub, by show 0 < n - 1; omega, this.version, this.count, this.proto, this.holds⟩
      · exact hi.own y (by rw [h]; simp [h1])

/-- A context for which code was generated, put at the end. -/
theorem inv_push {g : Gen} {s : Sys} (hi : Inv g s) {p : Proto} {c : Ctx} {m' : Mem} {l : List Int}
    (hv : p.version = 1) (hp : p.numParams.toNat = p.params.length)
    (ho : c.orig = p) (hpr : c.proto = g.detect p) (hl : l = offsets 0 (g.vars (g.detect p)))
    (h1 : c.hi = s.mem.next) (h2 : c.vfn = s.mem.next + 1) (h3 : c.built = s.mem.next + 2)
    (hh : Holds m' c (s.mem.next + 3) (s.mem.next + 4)) (hn : m'.next = s.mem.next + 5)
    (hb : ∀ x, s.mem.next + 5 ≤ x ∨ x < s.mem.next → m'.blocks x = s.mem.blocks x) (hpub : c.pub ≠ 0) :
    Inv g { s with mem := m', ctxs := s.ctxs ++ [(c, 1)], frames := s.frames ++ [(c.proto, l)] } := by
  have hal : allOwned (s.ctxs ++ [(c, 1)]) = allOwned s.ctxs ++ owned c := by simp [allOwned]
  have how : owned c = [s.mem.next, s.mem.next + 1, s.mem.next + 2, s.mem.next + 3, s.mem.next + 4] := by
    rw [hh.owned, h1, h2, h3]
  have hlt : ∀ z, z ∈ allOwned s.ctxs ∨ z ∈ s.lost → z < s.mem.next := by
    intro z hz
    by_cases hc : z < s.mem.next
    · exact hc
    · exact absurd (hi.fresh z (by omega)) ((hi.live z).2 hz)
  refine ⟨fun y hy => ?_, ?_, fun z => ?_, fun z hz => ?_, fun f hf => ?_, hi.lost⟩
  · rcases List.mem_append.1 hy with hy | hy
    · refine (hi.own y hy).frame fun z hz => hb z (.inr (hlt z (.inl (List.mem_flatMap.2 ⟨y, hy, hz⟩))))
    · simp only [List.mem_singleton] at hy
      subst hy
      exact ⟨hpub, Nat.one_pos, by show c.orig.version = 1; rw [ho, hv], by show c.orig.numParams.toNat = _; rw [ho]; exact hp,
        by show c.proto = g.detect c.orig; rw [hpr, ho], _, _, hh⟩
  · show (allOwned (s.ctxs ++ [(c, 1)]) ++ s.lost).Nodup
    have hperm : List.Perm (allOwned (s.ctxs ++ [(c, 1)]) ++ s.lost) (owned c ++ (allOwned s.ctxs ++ s.lost)) := by
      rw [hal]
      refine List.perm_iff_count.2 fun n => ?_
      simp only [List.count_append]
      omega
    rw [hperm.nodup_iff, List.nodup_append]
    refine ⟨by rw [how]; simp, hi.nodup, fun z hz y hy e => ?_⟩
    have h4 := hlt y (List.mem_append.1 hy)
    rw [how] at hz
    simp at hz
    omega
  · show m'.blocks z ≠ none ↔ z ∈ allOwned (s.ctxs ++ [(c, 1)]) ∨ z ∈ s.lost
    rw [hal]
    by_cases hz : s.mem.next + 5 ≤ z ∨ z < s.mem.next
    · rw [hb z hz, hi.live]
      have : z ∉ owned c := by rw [how]; simp; omega
      simp [this]
    · have hin : z ∈ owned c := by rw [how]; simp; omega
      refine ⟨fun _ => .inl (by simp [hin]), fun _ hnone => ?_⟩
      rw [hh.owned] at hin
      simp only [List.mem_cons, List.not_mem_nil, or_false] at hin
      rcases hin with e | e | e | e | e <;> subst e
      · rw [hh.hi] at hnone; cases hnone
      · rw [hh.vfn] at hnone; cases hnone
      · rw [hh.built] at hnone; cases hnone
      · rw [hh.pa] at hnone; cases hnone
      · rw [hh.pb] at hnone; cases hnone
  · show m'.blocks z = none
    have hz' : s.mem.next + 5 ≤ z := by
      have : m'.next ≤ z := hz
      omega
    rw [hb z (.inl hz')]
    exact hi.fresh z (by omega)
  · rcases List.mem_append.1 hf with hf | hf
    · exact hi.frames f hf
    · simp only [List.mem_singleton] at hf
      subst hf
      show l = offsets 0 (g.vars c.proto)
      rw [hpr, hl]

/-- A context for which nothing was generated is destroyed again. -/
theorem construct_destroy (g : Gen) {s : Sys} (hi : Inv g s) (p : Proto) (offs idx : Int) {c : Ctx}
    (h1 : c.hi = s.mem.next) (h2 : c.vfn = s.mem.next + 1) (h3 : c.built = s.mem.next + 2) (h4 : c.params = none)
    (h5 : c.params2 = none) :
    ∃ m, destroy g c (construct p offs idx s.mem).1 = .ok m ∧ left g c = [] ∧ Inv g { s with mem := m } := by
  have hl : left g c = [] := by unfold left; rw [h4, h5]; cases g.clears <;> rfl
  have hb : ∀ x, (construct p offs idx s.mem).1.blocks x = if x = s.mem.next + 2 then some (.info none) else
      if x = s.mem.next + 1 then some .ptr else if x = s.mem.next then some .ptr else s.mem.blocks x := fun x => rfl
  have hd : destroy g c (construct p offs idx s.mem).1 =
      .ok ((((construct p offs idx s.mem).1.free s.mem.next).free (s.mem.next + 1)).free (s.mem.next + 2)) := by
    have e : (if g.clears then clear c (construct p offs idx s.mem).1 else .ok ((construct p offs idx s.mem).1, c)) =
        (.ok ((construct p offs idx s.mem).1, c) : Except Err _) := by
      cases g.clears
      · rfl
      · simp only [if_true, clear, drop, h4, h5]
        congr 2
        cases c
        simp only at h4 h5
        subst h4 h5
        rfl
    unfold destroy
    rw [e, h1, h2, h3]
    simp only []
    rw [delete_ok (arr := false) (b := .ptr) (by rw [hb, if_neg (by omega), if_neg (by omega), if_pos rfl]) rfl]
    simp only []
    rw [delete_ok (arr := false) (b := .ptr) (by rw [free_blocks, if_neg (by omega), hb, if_neg (by omega), if_pos rfl]) rfl]
    simp only []
    rw [delete_ok (arr := false) (b := .info none) (by
      rw [free_blocks, if_neg (by omega), free_blocks, if_neg (by omega), hb, if_pos rfl]) rfl]
  refine ⟨_, hd, hl, ?_⟩
  have hbl : ∀ x, ((((construct p offs idx s.mem).1.free s.mem.next).free (s.mem.next + 1)).free (s.mem.next + 2)).blocks x
      = s.mem.blocks x := by
    intro x
    simp only [free_blocks, hb]
    have f0 := hi.fresh s.mem.next (by omega)
    have f1 := hi.fresh (s.mem.next + 1) (by omega)
    have f2 := hi.fresh (s.mem.next + 2) (by omega)
    split
    · rename_i e; rw [e, f2]
    split
    · rename_i e; rw [e, f1]
    split
    · rename_i e; rw [e, f0]
    rfl
  refine ⟨fun y hy => (hi.own y hy).frame fun z _ => hbl z, hi.nodup, fun z => ?_, fun z hz => ?_, hi.frames, hi.lost⟩
  · show _ ≠ none ↔ _
    rw [hbl]; exact hi.live z
  · show _ = none
    rw [hbl]
    have : s.mem.next + 3 ≤ z := hz
    exact hi.fresh z (by omega)

theorem destroy_pub (g : Gen) (c : Ctx) (n : Nat) (m : Mem) : destroy g { c with pub := n } m = destroy g c m := by
  unfold destroy
  cases g.clears
  · rfl
  · simp only [if_true, clear]
    cases drop true c.params m with
    | error e => rfl
    | ok m' =>
      simp only []
      cases drop true c.params2 m' with
      | error e => rfl
      | ok m'' => rfl

theorem inv_make {g : Gen} (hg : g.Ok) {s : Sys} (hi : Inv g s) {pi : ProtoInfo} (hr : Readable pi) (offs idx : Int)
    (code : Nat) : ∃ s' r, make g pi offs idx code s = .ok (s', r) ∧ Inv g s' := by
  obtain ⟨p, hf, hv, hp⟩ := fill_ok hr
  unfold make
  rw [hf]
  simp only []
  rcases findCtx_ok hp offs idx s.ctxs 0 hi.own with e | ⟨k, e, hk⟩
  · rw [e]
    simp only []
    rcases new_ctx g hg p offs idx code s.mem hp with ⟨m', c, h, hm, h0, h1, h2, h3, h4, h5⟩ |
        ⟨m', c, l, h, hv1, hpub, ho, hpr, hl, h1, h2, h3, hh, hn, hb⟩
    · subst hm
      rw [show construct p offs idx s.mem = ((construct p offs idx s.mem).1, (construct p offs idx s.mem).2) from rfl]
      simp only []
      rw [h]
      simp only [h0, ne_eq, not_true_eq_false, if_false]
      obtain ⟨m, hd, hl, hinv⟩ := construct_destroy g hi p offs idx h1 h2 h3 h4 h5
      rw [hd]
      refine ⟨_, _, rfl, ?_⟩
      rw [hl]
      simpa using hinv
    · rw [show construct p offs idx s.mem = ((construct p offs idx s.mem).1, (construct p offs idx s.mem).2) from rfl]
      simp only []
      rw [h]
      simp only []
      have hv1' : p.version = 1 := by rcases hv with hv | hv <;> omega
      by_cases hc : c.pub = 0
      · -- stored with another code, then destroyed
        have hinv := inv_push (c := { c with pub := 1 }) hi hv1' (hp hv1).1 ho hpr hl h1 h2 h3
          ⟨hh.ea, hh.eb, hh.hi, hh.vfn, hh.built, hh.pa, hh.pb, hh.count⟩ hn hb Nat.one_ne_zero
        obtain ⟨m, hd, hinv2⟩ := inv_destroy hinv (a := s.ctxs) (b := []) (x := ({ c with pub := 1 }, 1)) rfl
        have hd' : destroy g c m' = .ok m := by rw [← destroy_pub g c 1]; exact hd
        have hlf : left g { c with pub := 1 } = left g c := rfl
        rw [if_neg (by simpa using hc), hd']
        refine ⟨_, _, rfl, ?_⟩
        simpa [hlf] using hinv2
      · rw [if_pos (by simpa using hc)]
        exact ⟨_, _, rfl, inv_push hi hv1' (hp hv1).1 ho hpr hl h1 h2 h3 hh hn hb hc⟩
  · rw [e]
    simp only [Nat.zero_add]
    rw [List.getElem?_eq_getElem hk]
    simp only []
    have hx := hi.own s.ctxs[k] (List.getElem_mem hk)
    rw [getPubFunc, if_neg hx.pub]
    refine ⟨_, _, rfl, ?_⟩
    have hal : allOwned (s.ctxs.set k (s.ctxs[k].1, s.ctxs[k].2 + 1)) = allOwned s.ctxs := by
      unfold allOwned
      rw [List.flatMap_def, List.flatMap_def]
      congr 1
      rw [List.map_set]
      have : owned s.ctxs[k].1 = (s.ctxs.map fun x => owned x.1)[k]'(by simpa using hk) := by simp
      simp only [this, List.set_getElem_self]
    refine ⟨fun y hy => ?_, by rw [hal]; exact hi.nodup, by rw [hal]; exact hi.live, hi.fresh, by simpa using hi.frames, hi.lost⟩
    rcases List.mem_or_eq_of_mem_set hy with h | h
    · exact hi.own y h
    · subst h
      exact ⟨hx.pub, Nat.succ_pos _, hx.version, hx.count, hx.proto, hx.holds⟩

/-- No counterpart in /repo: the requests in a list of calls are readable. -/
def Op.Fine : Op → Prop
  | .make pi _ _ _ => Readable pi
  | .release _ => True

theorem inv_step {g : Gen} (hg : g.Ok) {s : Sys} (hi : Inv g s) {o : Op} (ho : o.Fine) :
    ∃ s', step g s o = .ok s' ∧ Inv g s' := by
  cases o with
  | make pi offs idx code =>
    obtain ⟨s', r, h, hinv⟩ := inv_make hg hi ho offs idx code
    exact ⟨s', by rw [step, h]; rfl, hinv⟩
  | release pub => exact inv_release hi pub

theorem inv_run {g : Gen} (hg : g.Ok) : ∀ (os : List Op) {s : Sys}, Inv g s → (∀ o ∈ os, o.Fine) →
    ∃ s', run g os s = .ok s' ∧ Inv g s'
  | [], s, hi, _ => ⟨s, rfl, hi⟩
  | o :: os, s, hi, h => by
    obtain ⟨s1, e, h1⟩ := inv_step hg hi (h o (by simp))
    rw [run, e]
    exact inv_run hg os h1 fun o' ho' => h o' (by simp [ho'])

theorem inv_destroyAll {g : Gen} : ∀ (l : List (Ctx × Nat)) {s : Sys}, s.ctxs = l → Inv g s →
    ∃ m lost, destroyAll g l s.mem = .ok m ∧ Inv g { s with mem := m, ctxs := [], lost := lost }
  | [], s, h, hi => ⟨s.mem, s.lost, rfl, by rw [← h]; exact hi⟩
  | x :: l, s, h, hi => by
    obtain ⟨m, hd, hinv⟩ := inv_destroy hi (a := []) (b := l) (x := x) h
    obtain ⟨m', lost, hd', hinv'⟩ := inv_destroyAll l (s := { s with mem := m, ctxs := l, lost := s.lost ++ left g x.1 }) rfl hinv
    exact ⟨m', lost, by rw [destroyAll, hd]; exact hd', hinv'⟩

end Verif.Gen
