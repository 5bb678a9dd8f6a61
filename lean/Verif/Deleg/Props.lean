/-
Properties of delegates.  The specification: a delegate variable is bound to nothing, to an object and a member function, or to a plain
function; using it is using what it is bound to.
-/
import Verif.Deleg.Lemmas

namespace Verif.Deleg

/-- What a delegate is bound to. Specification. -/
inductive Bound (n : Nat) (F : Type)
  | nothing
  | member (p : W n) (f : F)
  | plain (f : W n)
  deriving DecidableEq

/-- What calling it calls: the compiler's own call of the member function, or the function. Specification. -/
def Bound.calls {n : Nat} {F : Type} (G : Gen n F) (mem : Mem n) : Bound n F → Option (Target n)
  | .nothing => none
  | .member p f => (G.call mem p f).map fun c => .method c.code c.this_
  | .plain f => some (.plain f)

/-- What a program does with its delegates. Specification: the uses of core/sourcehook/FastDelegate.h. -/
inductive Op (n : Nat) (F : Type)
  | clear (v : Nat)
  | member (v : Nat) (p : W n) (f : F)
  | plain (v : Nat) (f : W n)
  | copy (v u : Nat)

/-- What the variables are bound to afterwards. Specification. -/
def Op.spec {n : Nat} {F : Type} (s : Nat → Bound n F) : Op n F → Nat → Bound n F
  | .clear v => fun a => if a = v then .nothing else s a
  | .member v p f => fun a => if a = v then .member p f else s a
  | .plain v f => fun a => if a = v then (if f = 0 then .nothing else .plain f) else s a
  | .copy v u => fun a => if a = v then s u else s a

/-- What the code makes of it: the variables are at the addresses `at_`. Specification: names the model's functions. -/
def Op.run {n : Nat} {F : Type} (G : Gen n F) (inv : F) (at_ : Nat → W n) (s : Nat → Dg n F) : Op n F → Nat → Dg n F
  | .clear v => fun a => if a = v then cleared G else s a
  | .member v p f => fun a => if a = v then ⟨p, f⟩ else s a
  | .plain v f => fun a => if a = v then bindStatic G inv (at_ v) f else s a
  | .copy v u => fun a => if a = v then copyFrom (s v) (s u) else s a

/-- A member function that can be bound: not null, and not the delegate's own private one. Specification. -/
def Op.Ok {n : Nat} {F : Type} (G : Gen n F) (inv : F) : Op n F → Prop
  | .member _ _ f => G.eq f G.zero = false ∧ G.eq f inv = false
  | _ => True

/-- How a binding is kept. No counterpart in /repo: the invariant of the proofs. -/
def Bound.dg {n : Nat} {F : Type} (G : Gen n F) (inv : F) : Bound n F → Dg n F
  | .nothing => ⟨0, G.zero⟩
  | .member p f => ⟨p, f⟩
  | .plain f => ⟨f, inv⟩

/-- The same for what is bound. No counterpart in /repo: the invariant of the proofs. -/
def Bound.Ok {n : Nat} {F : Type} (G : Gen n F) (inv : F) : Bound n F → Prop
  | .nothing => True
  | .member _ f => G.eq f G.zero = false ∧ G.eq f inv = false
  | .plain f => f ≠ 0

theorem run_dg {n : Nat} {F : Type} {G : Gen n F} {inv : F} {at_ : Nat → W n} (ops : List (Op n F)) (hok : ∀ o ∈ ops, o.Ok G inv) :
    ∀ {s : Nat → Dg n F} {b : Nat → Bound n F}, (∀ v, s v = (b v).dg G inv ∧ (b v).Ok G inv) →
      ∀ v, ops.foldl (Op.run G inv at_) s v = (ops.foldl Op.spec b v).dg G inv ∧ (ops.foldl Op.spec b v).Ok G inv := by
  induction ops with
  | nil => intro s b h v; exact h v
  | cons o os ih =>
    intro s b h
    refine ih (fun o ho => hok o (List.mem_cons_of_mem _ ho)) ?_
    intro v
    have ho := hok o (List.mem_cons_self ..)
    cases o with
    | clear u =>
      simp only [Op.run, Op.spec]
      by_cases e : v = u
      · rw [if_pos e, if_pos e]; exact ⟨rfl, trivial⟩
      · rw [if_neg e, if_neg e]; exact h v
    | member u p f =>
      simp only [Op.run, Op.spec]
      by_cases e : v = u
      · rw [if_pos e, if_pos e]; exact ⟨rfl, ho⟩
      · rw [if_neg e, if_neg e]; exact h v
    | plain u f =>
      simp only [Op.run, Op.spec]
      by_cases e : v = u
      · rw [if_pos e, if_pos e]
        by_cases z : f = 0
        · rw [if_pos z, bindStatic, if_pos z, z]; exact ⟨rfl, trivial⟩
        · rw [if_neg z, bindStatic, if_neg z]; exact ⟨rfl, z⟩
      · rw [if_neg e, if_neg e]; exact h v
    | copy u w =>
      simp only [Op.run, Op.spec]
      by_cases e : v = u
      · rw [if_pos e, if_pos e]; exact h w
      · rw [if_neg e, if_neg e]; exact h v

theorem equal_dg {n : Nat} {F : Type} {G : Gen n F} (L : Law G) {inv : F} (hinv : G.eq inv G.zero = false) {a b : Bound n F}
    (ha : a.Ok G inv) (hb : b.Ok G inv) : isEqual G (a.dg G inv) (b.dg G inv) = true ↔ a = b := by
  rw [isEqual, Bool.and_eq_true, decide_eq_true_eq]
  have z := zero_left L hinv
  cases a with
  | nothing =>
    cases b with
    | nothing => exact ⟨fun _ => rfl, fun _ => ⟨rfl, L.refl _⟩⟩
    | member q g =>
      refine ⟨fun h => ?_, fun h => by cases h⟩
      rw [show G.eq (Bound.nothing (n := n) (F := F) |>.dg G inv).fn (Bound.member q g |>.dg G inv).fn = G.eq G.zero g from rfl,
        zero_left L hb.1] at h
      exact absurd h.2 (by simp)
    | plain g =>
      refine ⟨fun h => ?_, fun h => by cases h⟩
      exact absurd h.1.symm hb
  | member p f =>
    cases b with
    | nothing =>
      refine ⟨fun h => ?_, fun h => by cases h⟩
      have h2 : G.eq f G.zero = true := h.2
      rw [ha.1] at h2; exact absurd h2 (by simp)
    | member q g =>
      refine ⟨fun h => ?_, fun h => by cases h; exact ⟨rfl, L.refl _⟩⟩
      have h1 : p = q := h.1
      have h2 : G.eq f g = true := h.2
      rw [h1, L.exact_ f g ha.1 h2]
    | plain g =>
      refine ⟨fun h => ?_, fun h => by cases h⟩
      have h2 : G.eq f inv = true := h.2
      rw [ha.2] at h2; exact absurd h2 (by simp)
  | plain f =>
    cases b with
    | nothing =>
      refine ⟨fun h => ?_, fun h => by cases h⟩
      exact absurd h.1 ha
    | member q g =>
      refine ⟨fun h => ?_, fun h => by cases h⟩
      have h2 : G.eq inv g = true := h.2
      have h3 := L.symm _ _ h2
      rw [hb.2] at h3; exact absurd h3 (by simp)
    | plain g =>
      refine ⟨fun h => ?_, fun h => by cases h; exact ⟨rfl, L.refl _⟩⟩
      have h1 : f = g := h.1
      rw [h1]

/-- Both compilers meet the assumptions of these theorems, with the helper's code at any address that can hold a function. -/
theorem compilers_ok (n : Nat) (invCode : W n) (h0 : invCode ≠ 0) (h1 : invCode &&& 1 ≠ 1) :
    (Law (itanium n) ∧ (itanium n).eq ⟨invCode, 0⟩ (itanium n).zero = false ∧
      ∀ mem p, (itanium n).call mem p ⟨invCode, 0⟩ = some ⟨invCode, p⟩) ∧
    Law (msvc n) ∧ (msvc n).eq invCode (msvc n).zero = false ∧ ∀ mem p, (msvc n).call mem p invCode = some ⟨invCode, p⟩ := by
  refine ⟨⟨law_itanium n, ?_, ?_⟩, law_msvc n, ?_, ?_⟩
  · simp only [itanium]
    rw [decide_eq_false h0, Bool.false_and]
  · intro mem p
    simp only [itanium]
    rw [if_neg h0, Mfp.call, if_neg h1]
    exact congrArg (fun x => some (Call.mk invCode x)) (BitVec.add_zero (x := p))
  · simp only [msvc]
    exact decide_eq_false h0
  · intro mem p
    simp only [msvc]
    rw [if_neg h0]

/-- All variables begin empty. Specification: the default constructor, core/sourcehook/FastDelegate.h:874-876. -/
def start {n : Nat} {F : Type} (G : Gen n F) : Nat → Dg n F := fun _ => cleared G

/-- After any sequence of binding, copying and clearing, calling a delegate calls exactly what it was last bound to: the compiler's own
call of the member function on the object, or the plain function; an empty delegate calls through a null pointer. `invCode` is the code of
the private helper, at which no member function bound by a program ends up. -/
theorem calls_bound {n : Nat} {F : Type} {G : Gen n F} (L : Law G) {inv : F} {invCode : W n} (hinv : ∀ mem p, G.call mem p inv = some ⟨invCode, p⟩)
    (at_ : Nat → W n) (ops : List (Op n F)) (hok : ∀ o ∈ ops, o.Ok G inv) (mem : Mem n) (v : Nat)
    (hcode : ∀ p f c, ops.foldl Op.spec (fun _ => .nothing) v = .member p f → G.call mem p f = some c → c.code ≠ invCode) :
    invoke G invCode mem (ops.foldl (Op.run G inv at_) (start G) v) = (ops.foldl Op.spec (fun _ => .nothing) v).calls G mem := by
  have h := (run_dg (G := G) (inv := inv) (at_ := at_) ops hok (s := start G) (b := fun _ => .nothing) (fun _ => ⟨rfl, trivial⟩) v).1
  rw [h]
  cases e : ops.foldl Op.spec (fun _ => Bound.nothing) v with
  | nothing =>
    rw [invoke]
    rw [show G.call mem (Bound.nothing.dg G inv).this_ (Bound.nothing.dg G inv).fn = none from L.null mem 0 G.zero (L.refl _)]
    rfl
  | member p f =>
    rw [invoke, Bound.calls]
    cases e2 : G.call mem p f with
    | none =>
      rw [show G.call mem ((Bound.member p f).dg G inv).this_ ((Bound.member p f).dg G inv).fn = none from e2]
      rfl
    | some c =>
      rw [show G.call mem ((Bound.member p f).dg G inv).this_ ((Bound.member p f).dg G inv).fn = some c from e2]
      simp only [Option.map_some]
      rw [if_neg (hcode p f c e e2)]
  | plain f =>
    rw [invoke, show G.call mem ((Bound.plain f).dg G inv).this_ ((Bound.plain f).dg G inv).fn = some ⟨invCode, f⟩ from hinv mem f]
    simp only [if_true]
    rfl

/-- A variable bound to a virtual function of an object and copied: the call looks the function up in the object's table. -/
example (mem : Mem 8) (h : mem (mem 0x1000 + 16) ≠ 0x600000) :
    invoke (itanium 8) 0x600000 mem
      ([Op.member 0 0x1000 ⟨17, 0⟩, Op.copy 1 0, Op.plain 0 0x400000].foldl (Op.run (itanium 8) ⟨0x600000, 0⟩ (fun v => BitVec.ofNat _ (0x9000 + 16 * v)))
        (start (itanium 8)) 1) = some (.method (mem (mem 0x1000 + 16)) 0x1000) := by
  rw [calls_bound (law_itanium 8) (compilers_ok 8 0x600000 (by decide) (by decide)).1.2.2 _ _ (by
    intro o ho
    simp only [List.mem_cons, List.not_mem_nil, or_false] at ho
    rcases ho with rfl | rfl | rfl
    · exact ⟨by decide, by decide⟩
    · trivial
    · trivial) mem 1 (by
    intro p f c e hc
    have e' : Bound.member (n := 8) 0x1000 (Mfp.mk 17 0) = Bound.member p f := e
    cases e'
    cases hc
    exact h)]
  rfl

/-- Two delegates are equal exactly if they are bound to the same: the same object and the same pointer to a member, or the same plain
function, or both to nothing. -/
theorem equal_iff_bound {n : Nat} {F : Type} {G : Gen n F} (L : Law G) {inv : F} (hinv : G.eq inv G.zero = false) (at_ : Nat → W n)
    (ops : List (Op n F)) (hok : ∀ o ∈ ops, o.Ok G inv) (v u : Nat) :
    let s := ops.foldl (Op.run G inv at_) (start G)
    let b := ops.foldl Op.spec (fun _ => .nothing)
    Impl.isEqual G ⟨s v⟩ ⟨s u⟩ = true ↔ b v = b u := by
  have h := run_dg (G := G) (inv := inv) (at_ := at_) ops hok (s := start G) (b := fun _ => .nothing) (fun _ => ⟨rfl, trivial⟩)
  show isEqual G _ _ = true ↔ _
  rw [(h v).1, (h u).1]
  exact equal_dg L hinv (h v).2 (h u).2

/-- A plain function and its copy, a member function of another variable. -/
example :
    let s := [Op.plain (n := 8) 0 0x400000, Op.copy 1 0, Op.member 2 0x1000 ⟨17, 0⟩].foldl (Op.run (itanium 8) ⟨0x600000, 0⟩ (fun _ => 0x9000))
      (start (itanium 8))
    Impl.isEqual (itanium 8) ⟨s 0⟩ ⟨s 1⟩ = true ∧ Impl.isEqual (itanium 8) ⟨s 0⟩ ⟨s 2⟩ = false ∧ empty (itanium 8) (s 3) = true := by
  refine ⟨rfl, rfl, rfl⟩

/-- A delegate is empty exactly if it is bound to nothing. -/
theorem empty_iff_bound {n : Nat} {F : Type} {G : Gen n F} (L : Law G) {inv : F} (hinv : G.eq inv G.zero = false) (at_ : Nat → W n)
    (ops : List (Op n F)) (hok : ∀ o ∈ ops, o.Ok G inv) (v : Nat) :
    empty G (ops.foldl (Op.run G inv at_) (start G) v) = true ↔ ops.foldl Op.spec (fun _ => .nothing) v = .nothing := by
  have h := run_dg (G := G) (inv := inv) (at_ := at_) ops hok (s := start G) (b := fun _ => .nothing) (fun _ => ⟨rfl, trivial⟩) v
  rw [h.1]
  exact equal_dg L hinv (b := .nothing) h.2 trivial

/-- Equal delegates call the same, whatever they hold and whatever is in memory. -/
theorem equal_calls_same {n : Nat} {F : Type} {G : Gen n F} (L : Law G) (invCode : W n) (mem : Mem n) (i j : Impl n F)
    (h : i.isEqual G j = true) : i.call G invCode mem = j.call G invCode mem := by
  obtain ⟨p, f⟩ := i
  obtain ⟨q, g⟩ := j
  rw [Impl.isEqual, isEqual, Bool.and_eq_true, decide_eq_true_eq] at h
  have h1 : p = q := h.1
  have h2 : G.eq f g = true := h.2
  subst h1
  cases z : G.eq f G.zero with
  | false => rw [L.exact_ f g z h2]
  | true =>
    have z' : G.eq g G.zero = true := L.trans _ _ _ (L.symm _ _ h2) z
    rw [Impl.call, Impl.call, invoke, invoke]
    rw [show G.call mem (Dg.mk p f).this_ (Dg.mk p f).fn = none from L.null mem p f z,
      show G.call mem (Dg.mk p g).this_ (Dg.mk p g).fn = none from L.null mem p g z']

/-- Two handlers made from the same object and function, as by SH_ADD_HOOK and SH_REMOVE_HOOK. -/
example (mem : Mem 8) : (Impl.mk (bindMem 0x1000 ⟨0x400000, 8⟩)).call (itanium 8) 0x600000 mem =
    (Impl.mk (bindMem 0x1000 ⟨0x400000, 8⟩)).call (itanium 8) 0x600000 mem :=
  equal_calls_same (law_itanium 8) 0x600000 mem _ _ (by decide)

/-- `IsEqual` is an equivalence: there is a number for every handler such that two handlers are equal exactly if the numbers are. This is
the `key` that stands for the handler in the model of the hook lists (Verif.SH.Handler). -/
theorem handler_key {n : Nat} {F : Type} {G : Gen n F} (L : Law G) :
    (∀ i, Impl.isEqual G i i = true) ∧ (∀ i j, Impl.isEqual G i j = true → Impl.isEqual G j i = true) ∧
    (∀ i j k, Impl.isEqual G i j = true → Impl.isEqual G j k = true → Impl.isEqual G i k = true) ∧
    ∃ key : Impl n F → Nat, ∀ i j, Impl.isEqual G i j = true ↔ key i = key j := by
  have hk : ∃ key : Impl n F → Nat, ∀ i j, Impl.isEqual G i j = true ↔ key i = key j := by
    obtain ⟨k, hk⟩ := L.key
    refine ⟨fun i => i.deleg.this_.toNat + 256 ^ n * k i.deleg.fn, fun i j => ?_⟩
    rw [Impl.isEqual, isEqual, Bool.and_eq_true, decide_eq_true_eq, hk, pair_inj (toNat_lt _) (toNat_lt _)]
    exact ⟨fun h => ⟨congrArg _ h.1, h.2⟩, fun h => ⟨BitVec.eq_of_toNat_eq h.1, h.2⟩⟩
  obtain ⟨key, h⟩ := hk
  refine ⟨fun i => (h i i).2 rfl, fun i j e => (h j i).2 ((h i j).1 e).symm,
    fun i j k e1 e2 => (h i k).2 (((h i j).1 e1).trans ((h j k).1 e2)), key, h⟩

/-- Three handlers, the first and the last the same. -/
example : (∃ key : Impl 8 (Mfp 8) → Nat, ∀ i j, Impl.isEqual (itanium 8) i j = true ↔ key i = key j) ∧
    Impl.isEqual (itanium 8) ⟨bindMem 0x1000 ⟨17, 0⟩⟩ ⟨bindMem 0x1000 ⟨25, 0⟩⟩ = false :=
  ⟨(handler_key (law_itanium 8)).2.2.2, by decide⟩

/-- `<` is a strict order of all delegates, and of two different ones that are bound one is less than the other. -/
theorem less_order {n : Nat} {F : Type} {G : Gen n F} (L : Law G) :
    (∀ a : Dg n F, isLess G a a = false) ∧ (∀ a b c : Dg n F, isLess G a b = true → isLess G b c = true → isLess G a c = true) ∧
    (∀ a b : Dg n F, G.eq a.fn G.zero = false → isEqual G a b = true → isLess G a b = false ∧ isLess G b a = false) ∧
    (∀ a b : Dg n F, isEqual G a b = false → isLess G a b = true ∨ isLess G b a = true) := by
  have irr : ∀ a : Dg n F, isLess G a a = false := fun a => by
    rw [isLess, if_neg (fun h => h rfl), memLt_irrefl]
  refine ⟨irr, ?_, ?_, ?_⟩
  · intro a b c h1 h2
    rw [isLess] at h1 h2 ⊢
    by_cases hab : a.this_ = b.this_
    · rw [if_neg (fun h => h hab)] at h1
      by_cases hbc : b.this_ = c.this_
      · rw [if_neg (fun h => h hbc)] at h2
        rw [if_neg (fun h => h (hab.trans hbc))]
        exact memLt_trans h1 h2
      · rw [if_pos hbc] at h2
        rw [if_pos (hab ▸ hbc), hab]
        exact h2
    · rw [if_pos hab, decide_eq_true_eq] at h1
      by_cases hbc : b.this_ = c.this_
      · rw [if_pos (hbc ▸ hab), decide_eq_true_eq, ← hbc]
        exact h1
      · rw [if_pos hbc, decide_eq_true_eq] at h2
        have lt : a.this_.toNat < c.this_.toNat := Nat.lt_trans h1 h2
        rw [if_pos (fun h => by rw [h] at lt; exact Nat.lt_irrefl _ lt), decide_eq_true_eq]
        exact lt
  · intro a b hz he
    rw [isEqual, Bool.and_eq_true, decide_eq_true_eq] at he
    have e : a = b := by
      obtain ⟨p, f⟩ := a
      obtain ⟨q, g⟩ := b
      have h1 : p = q := he.1
      rw [h1, L.exact_ f g hz he.2]
    subst e
    exact ⟨irr a, irr a⟩
  · intro a b he
    rw [isLess, isLess]
    by_cases hab : a.this_ = b.this_
    · rw [if_neg (fun h => h hab), if_neg (fun h => h hab.symm)]
      refine memLt_total (L.len _ _) (fun h => ?_)
      have hf := L.inj _ _ h
      rw [isEqual, hf, hab, L.refl] at he
      simp at he
    · rw [if_pos hab, if_pos (fun h => hab h.symm), decide_eq_true_eq, decide_eq_true_eq]
      rcases Nat.lt_trichotomy a.this_.toNat b.this_.toNat with h | h | h
      · exact Or.inl h
      · exact absurd (BitVec.eq_of_toNat_eq h) hab
      · exact Or.inr h

/-- Two functions of one object. -/
example : isLess (itanium 8) (bindMem 0x1000 ⟨17, 0⟩) (bindMem 0x1000 ⟨25, 0⟩) = true ∨
    isLess (itanium 8) (bindMem 0x1000 ⟨25, 0⟩) (bindMem 0x1000 ⟨17, 0⟩) = true :=
  (less_order (law_itanium 8)).2.2.2 _ _ (by decide)

/-- With the Microsoft compiler a member of a class with single, multiple or virtual inheritance is bound as the compiler's own call would
take it, at the time it is bound: the same code and the same object pointer, with pointers of four and of eight bytes (where a pointer
with multiple inheritance has the size of one with virtual inheritance and takes that path).  With unknown inheritance the header does not
compile. -/
theorem ms_bind {n : Nat} (hn : n = 4 ∨ n = 8) (X : Cls n) (mem : Mem n) (p : W n) (f : MsPtr n) (probe : W n) :
    bindMs X mem p f probe = if X.kind = .unknown then none else some ⟨(msCall X mem p f).this_, (msCall X mem p f).code⟩ := by
  obtain ⟨k, base⟩ := X
  rcases hn with rfl | rfl <;> cases k <;> simp [bindMs, convert, Kind.size, Kind.ints, msCall, msThis, getThis]

/-- A class with two bases, eight-byte pointers: the object pointer moves to the second base. -/
example : bindMs (n := 8) ⟨.multiple, fun _ _ _ => 0⟩ (fun _ => 0) 0x1000 ⟨0x400000, 16, [77]⟩ 0x500000 = some ⟨0x1010, 0x400000⟩ := by
  rw [ms_bind (Or.inr rfl)]; rfl

/-- There two handlers that are members are equal exactly if the compiler's calls would be the same, through whatever base classes they
were named. -/
theorem ms_equal_iff_call {n : Nat} (hn : n = 4 ∨ n = 8) (X Y : Cls n) (mem : Mem n) (p q : W n) (f g : MsPtr n) (probe : W n) {d e : Dg n (W n)}
    (hd : bindMs X mem p f probe = some d) (he : bindMs Y mem q g probe = some e) :
    Impl.isEqual (msvc n) ⟨d⟩ ⟨e⟩ = true ↔ msCall X mem p f = msCall Y mem q g := by
  rw [ms_bind hn] at hd he
  have hX : X.kind ≠ .unknown := fun h => by rw [if_pos h] at hd; cases hd
  have hY : Y.kind ≠ .unknown := fun h => by rw [if_pos h] at he; cases he
  rw [if_neg hX] at hd
  rw [if_neg hY] at he
  cases hd
  cases he
  simp only [Impl.isEqual, isEqual, msvc, Bool.and_eq_true, decide_eq_true_eq]
  refine ⟨fun h => ?_, fun h => by rw [h]; exact ⟨rfl, rfl⟩⟩
  cases h1 : msCall X mem p f
  cases h2 : msCall Y mem q g
  rw [h1, h2] at h
  simp only [Call.mk.injEq]
  exact ⟨h.2, h.1⟩

/-- The function of the second base, named through the base and through the derived class. -/
example : Impl.isEqual (msvc 4) ⟨⟨0x1010, 0x400000⟩⟩ ⟨⟨0x1010, 0x400000⟩⟩ = true :=
  (ms_equal_iff_call (n := 4) (Or.inl rfl) ⟨.multiple, fun _ _ _ => 0⟩ ⟨.single, fun _ _ _ => 0⟩ (fun _ => 0) 0x1000 0x1010 ⟨0x400000, 16, []⟩
    ⟨0x400000, 0, []⟩ 0x500000 (by rw [ms_bind (Or.inl rfl)]; rfl) (by rw [ms_bind (Or.inl rfl)]; rfl)).2 rfl

/-- With the Itanium ABI a member that is not null is bound as it is: calling the delegate makes the call the compiler makes through the
pointer, with the object pointer and the table as they are at the time of the call; and two such handlers are equal exactly if object and
pointer are the same. -/
theorem itanium_bind {n : Nat} (invCode : W n) (p q : W n) (f g : Mfp n) (h0 : f.ptr ≠ 0) :
    (∀ mem, (f.call mem p).code ≠ invCode →
      Impl.call (itanium n) invCode mem ⟨bindMem p f⟩ = some (.method (f.call mem p).code (f.call mem p).this_)) ∧
    (Impl.isEqual (itanium n) ⟨bindMem p f⟩ ⟨bindMem q g⟩ = true ↔ p = q ∧ f = g) := by
  refine ⟨fun mem hc => ?_, ?_⟩
  · have e : (itanium n).call mem (bindMem p f).this_ (bindMem p f).fn = some (f.call mem p) := if_neg h0
    rw [Impl.call, invoke]
    simp only [e]
    rw [if_neg hc]
  · obtain ⟨fp, fa⟩ := f
    obtain ⟨gp, ga⟩ := g
    have h0' : ¬ fp = 0 := h0
    simp only [Impl.isEqual, isEqual, itanium, bindMem, Bool.and_eq_true, Bool.or_eq_true, decide_eq_true_eq, Mfp.mk.injEq]
    exact ⟨fun h => ⟨of_decide_eq_true h.1, h.2.1, h.2.2.resolve_left h0'⟩, fun h => ⟨decide_eq_true h.1, h.2.1, .inr h.2.2⟩⟩

/-- A virtual function of the second base of an object. -/
example (mem : Mem 8) (h : mem (mem 0x1008 + 16) ≠ 0x600000) :
    Impl.call (itanium 8) 0x600000 mem ⟨bindMem 0x1000 ⟨17, 8⟩⟩ = some (.method (mem (mem 0x1008 + 16)) 0x1008) :=
  (itanium_bind (n := 8) 0x600000 0x1000 0x1000 ⟨17, 8⟩ ⟨17, 8⟩ (by decide)).1 mem h

/-- With the Itanium ABI this fails: the same member function of the same object, once named through the base class and once converted to
the derived class, makes the same call but different handlers; removing the hook by the other name does not find it. -/
theorem itanium_two_names : ∃ (p q : W 8) (f g : Mfp 8), (∀ mem, f.call mem p = g.call mem q) ∧
    Impl.isEqual (itanium 8) ⟨bindMem p f⟩ ⟨bindMem q g⟩ = false := by
  refine ⟨0x1000, 0x1008, ⟨1, 8⟩, ⟨1, 0⟩, fun mem => ?_, by decide⟩
  rfl

/-- Comparing a delegate with a plain function asks for the address of the delegate: the answer is no though it is bound to that function. -/
theorem static_compare_never {n : Nat} {F : Type} (G : Gen n F) (inv : F) (self f : W n) (h0 : f ≠ 0) (h : f ≠ self) :
    isEqualStatic G self (bindStatic G inv self f) f = false := by
  rw [isEqualStatic, if_neg h0, getStaticFunction]
  exact decide_eq_false h

/-- Null pointers to members can be equal and less: `IsEqual` leaves out the adjustment, `memcmp` does not. -/
theorem null_equal_less : ∃ a b : Dg 8 (Mfp 8), isEqual (itanium 8) a b = true ∧ isLess (itanium 8) a b = true :=
  ⟨⟨0x1000, ⟨0, 0⟩⟩, ⟨0x1000, ⟨0, 8⟩⟩, by decide, by decide⟩

/-- A delegate bound to a null pointer to a member of an object is not empty, and calling it is undefined. -/
theorem null_not_empty (p : W 8) (hp : p ≠ 0) (invCode : W 8) (mem : Mem 8) :
    empty (itanium 8) (bindMem p ⟨0, 0⟩) = false ∧ invoke (itanium 8) invCode mem (bindMem p ⟨0, 0⟩) = none := by
  refine ⟨?_, rfl⟩
  rw [empty, bindMem, decide_eq_false hp, Bool.false_and]

end Verif.Deleg

#print axioms Verif.Deleg.itanium_bind
