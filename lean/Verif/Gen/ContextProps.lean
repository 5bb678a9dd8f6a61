import Verif.Gen.ContextInv
import Verif.SH.ProtoProps
import Verif.Jit.HookAcceptProps
import Verif.Jit32.HookAcceptProps
/-
C82: what a generated hook manager hands to SourceHook is the prototype asked for, and the generators' memory is accounted
for.
-/
namespace Verif.Gen

open Verif.SH (PassInfo Proto ProtoInfo paramLoop SpecCompat SpecParamCompat)

/-! ## Specification -/

/-- Specification: the memory `CHookManagerAutoGen` and its contexts hold is that of the contexts of the table, each block
belonging to one of them only. -/
structure Accounted (s : Sys) : Prop where
  live : ∀ a, s.mem.blocks a ≠ none ↔ ∃ x ∈ s.ctxs, a ∈ [x.1.hi, x.1.vfn, x.1.built] ∨ x.1.params = some a ∨ x.1.params2 = some a
  once : (s.ctxs.flatMap fun x => [x.1.hi, x.1.vfn, x.1.built] ++ (x.1.params.toList ++ x.1.params2.toList)).Nodup

/-- Specification: the flags fit `unsigned int` (core/sourcehook/sourcehook.h:223). -/
def Small (p : Proto) : Prop := p.ret.flags < 2 ^ 32 ∧ ∀ q ∈ p.params, q.flags < 2 ^ 32

/-- Specification: a parameter the 32-bit GCC convention passes by reference although it is an object by value: one that is
said to have a destructor; `true` unless the request itself carries the generator's own flag (bit 30). -/
def Forced (q : PassInfo) : Prop :=
  q.type = 3 ∧ q.flags.testBit 0 = true ∧ q.flags.testBit 2 = true ∧ q.flags.testBit 30 = false

/-! ## The two generators -/

theorem gen32_ok : gen32.Ok := ⟨fun _ => rfl, fun _ => rfl, fun p => by simp [gen32, detect32]⟩
theorem gen64_ok : gen64.Ok := ⟨fun _ => rfl, fun _ => rfl, fun _ => rfl⟩

theorem gen_ok {g : Gen} (h : g = gen32 ∨ g = gen64) : g.Ok := by
  rcases h with h | h
  · rw [h]; exact gen32_ok
  · rw [h]; exact gen64_ok

/-- **C82.** The conditions here are those of `accepts` (C66): a request of a known version is generated for exactly if the
64-bit generator takes it. -/
theorem takes64_accepts (p : Proto) (h : 1 ≤ p.version) : gen64.takes (gen64.detect p) =
    Jit.accepts ⟨p.version, BitVec.ofInt 32 p.convention, pass64 p.ret, p.params.map pass64⟩ := by
  have hr : pass64 (detect64 p).ret = { pass64 p.ret with flags := Jit.autoDetect (pass64 p.ret) } := by
    simp [pass64, detect64]
  unfold Jit.accepts
  rw [if_neg (by show ¬ p.version < 1; omega)]
  show takes64 (detect64 p) = _
  unfold takes64
  rw [hr]
  simp only [Jit.Proto.detected, List.all_map, detect64, pass64]
  rfl

/-- **C82.** The same for the 32-bit generator (C75). -/
theorem takes32_accepts (p : Proto) (h : 1 ≤ p.version) : gen32.takes (gen32.detect p) =
    Jit32.accepts ⟨p.version, BitVec.ofInt 32 p.convention, pass32 p.ret, p.params.map pass32⟩ := by
  have hr : pass32 (detect32 p).ret = { pass32 p.ret with flags := Jit32.autoDetect (pass32 p.ret) } := by
    simp [pass32, detect32]
  have hq : ∀ q : PassInfo, pass32 { q with flags := (Jit32.forceRef (pass32 q)).toNat } =
      { pass32 q with flags := Jit32.forceRef (pass32 q) } := by
    intro q; simp [pass32]
  unfold Jit32.accepts
  rw [if_neg (by show ¬ p.version < 1; omega)]
  show takes32 (detect32 p) = _
  unfold takes32
  rw [hr]
  have hall : (detect32 p).params.all (fun q => Jit32.supported (pass32 q)) =
      ((p.params.map pass32).map fun q => { q with flags := Jit32.forceRef q }).all Jit32.supported := by
    simp only [detect32, List.all_map]
    congr 1
    funext q
    simp only [Function.comp, hq]
  rw [hall]
  simp only [Jit32.Proto.detected, detect32, pass32]
  rfl

/-! ## No undefined behaviour -/

/-- **C82.** Whatever is asked for and released, in whatever order: no array is deleted with the form of `delete` for single
objects (the two such statements of `BuildProtoInfo` are never reached with an array there), nothing is deleted twice and
nothing is read past the end; nor when the table itself is destroyed. -/
theorem generators_defined {g : Gen} (hg : g = gen32 ∨ g = gen64) (os : List Op) (h : ∀ o ∈ os, o.Fine) :
    ∃ s m, run g os Sys.init = .ok s ∧ destroyAll g s.ctxs s.mem = .ok m := by
  obtain ⟨s, hs, hi⟩ := inv_run (gen_ok hg) os (inv_init g) h
  obtain ⟨m, lost, hm, -⟩ := inv_destroyAll s.ctxs rfl hi
  exact ⟨s, m, hs, hm⟩

/-! ## The prototype handed over -/

theorem view_holds {m : Mem} {c : Ctx} {a b : Nat} (h : Holds m c a b) :
    view m c.built = some ⟨c.proto.numParams, c.proto.ret, 1, c.proto.params, c.proto.convention⟩ := by
  unfold view
  rw [h.built]
  simp only [infoOf]
  rw [h.pa, h.pb]
  have hr : readParams (passesOf c.proto) (ctorsArr c.proto) c.proto.numParams.toNat 1 = some c.proto.params := by
    have := readParams_spec c.proto.params (some ⟨1, 0, 0⟩) none c.proto.numParams.toNat 0 (by rw [h.count]; omega)
    simpa [passesOf, ctorsArr] using this
  have h0 : (passesOf c.proto)[0]? = some (some ⟨1, 0, 0⟩) := rfl
  simp only [h0, hr]
  rfl

/-- **C82.** What SourceHook reads at the address a generated hook manager hands it was written and is there, and is read as
exactly the prototype of the context, with the flags completed by the generator. -/
theorem built_read_back {g : Gen} (hg : g = gen32 ∨ g = gen64) {os : List Op} (h : ∀ o ∈ os, o.Fine) {s : Sys}
    (hs : run g os Sys.init = .ok s) : ∀ x ∈ s.ctxs, ∃ v, view s.mem x.1.built = some v ∧
      ∀ old, Proto.fill old v = some (g.detect x.1.orig) := by
  intro x hx
  obtain ⟨s', hs', hi⟩ := inv_run (gen_ok hg) os (inv_init g) h
  rw [hs] at hs'
  cases hs'
  have ho := hi.own x hx
  obtain ⟨a, b, hh⟩ := ho.holds
  refine ⟨_, view_holds hh, fun old => ?_⟩
  have hv : x.1.proto.version = 1 := by rw [ho.proto, (gen_ok hg).version, ho.version]
  have hc := hh.count
  rw [← ho.proto]
  unfold Proto.fill
  simp only [Nat.one_ne_zero, if_false, if_true, hc, Nat.le_refl]
  rw [← hc, hc, List.take_length, ← hv]

theorem findCtx_some {p : Proto} {offs idx : Int} : ∀ {l : List (Ctx × Nat)} {i j : Nat},
    findCtx p offs idx l i = .ok (some j) → ∃ k x, j = i + k ∧ l[k]? = some x ∧ x.1.same p offs idx = some true
  | [], _, _, h => by simp [findCtx] at h
  | c :: cs, i, j, h => by
    rw [findCtx] at h
    cases hs : c.1.same p offs idx with
    | none => rw [hs] at h; simp at h
    | some r =>
      rw [hs] at h
      cases r
      · obtain ⟨k, x, e, hk, hx⟩ := findCtx_some (l := cs) h
        exact ⟨k + 1, x, by omega, by simpa using hk, hx⟩
      · simp only [Except.ok.injEq, Option.some.injEq] at h
        exact ⟨0, c, by omega, rfl, hs⟩

theorem addVars_keep (l : List Nat) (c : Ctx) : (addVars c l).1.offs = c.offs ∧ (addVars c l).1.idx = c.idx := by
  obtain ⟨o, z, e⟩ := addVars_ctx l c
  rw [e]
  exact ⟨rfl, rfl⟩

theorem exactly_self (p : Proto) (h : p.numParams.toNat = p.params.length) : Proto.exactlyEqual? p p = some true := by
  have e : ∀ q : PassInfo, PassInfo.eqv q q = true := by intro q; simp [PassInfo.eqv]
  have l : ∀ (ps : List PassInfo), paramLoop PassInfo.eqv ps.length ps ps = some true := by
    intro ps
    induction ps with
    | nil => rfl
    | cons q qs ih => simp only [List.length_cons, paramLoop, e, if_true]; exact ih
  unfold Proto.exactlyEqual?
  rw [if_neg (by simp [e]), h, l]

/-- **C82.** The function answered belongs to a context of the table made for a request that agrees with this one in
everything that is compared, table offset and index included. -/
theorem answer_fits {g : Gen} (hg : g = gen32 ∨ g = gen64) {os : List Op} (h : ∀ o ∈ os, o.Fine) {s s' : Sys}
    (hs : run g os Sys.init = .ok s) {pi : ProtoInfo} (hr : Readable pi) {offs idx : Int} {code r : Nat}
    (hm : make g pi offs idx code s = .ok (s', r)) (h0 : r ≠ 0) :
    ∃ x ∈ s'.ctxs, x.1.pub = r ∧ ∃ p, Proto.fill default pi = some p ∧ 1 ≤ p.version ∧
      Proto.exactlyEqual? x.1.orig p = some true ∧ x.1.offs = offs ∧ x.1.idx = idx := by
  obtain ⟨s0, hs0, hi⟩ := inv_run (gen_ok hg) os (inv_init g) h
  rw [hs] at hs0
  cases hs0
  obtain ⟨p, hf, hv, hp⟩ := fill_ok hr
  unfold make at hm
  rw [hf] at hm
  simp only [] at hm
  rcases findCtx_ok hp offs idx s.ctxs 0 hi.own with e | ⟨k, e, hk⟩
  · rw [e] at hm
    simp only [] at hm
    rw [show construct p offs idx s.mem = ((construct p offs idx s.mem).1, (construct p offs idx s.mem).2) from rfl] at hm
    simp only [] at hm
    have hoff : ∀ m' c f, getPubFunc g (construct p offs idx s.mem).2 code (construct p offs idx s.mem).1 = .ok (m', c, f) →
        c.offs = offs ∧ c.idx = idx := by
      intro m' c f hq
      simp only [getPubFunc, construct, Mem.alloc, generate, clear, drop, if_true] at hq
      split at hq
      · cases hq
      · rename_i q1
        cases hq
        split at q1
        · cases q1; exact ⟨rfl, rfl⟩
        · split at q1
          · split at q1
            · cases q1
            · rename_i q2
              cases q1
              simp only [buildProtoInfo, drop, Mem.alloc] at q2
              split at q2
              · cases q2
              · split at q2
                · cases q2
                · cases q2; exact addVars_keep _ _
          · cases q1; exact ⟨rfl, rfl⟩
    rcases new_ctx g (gen_ok hg) p offs idx code s.mem hp with ⟨m', c, h', hm', hz, h1, h2, h3, h4, h5⟩ |
        ⟨m', c, l, h', hv1, hpub, ho, hpr, hl, h1, h2, h3, hh, hn, hb⟩
    · rw [h'] at hm
      simp only [hz, ne_eq, not_true_eq_false, if_false] at hm
      split at hm
      · cases hm
      · cases hm; exact absurd rfl h0
    · have ho2 := hoff _ _ _ h'
      rw [h'] at hm
      simp only [] at hm
      by_cases hc : c.pub = 0
      · rw [if_neg (by simpa using hc)] at hm
        split at hm
        · cases hm
        · cases hm; exact absurd rfl h0
      · rw [if_pos (by simpa using hc)] at hm
        cases hm
        refine ⟨(c, 1), by simp, rfl, p, hf, hv1, ?_, ho2.1, ho2.2⟩
        show Proto.exactlyEqual? c.orig p = some true
        rw [ho]
        exact exactly_self p (hp hv1).1
  · rw [e] at hm
    obtain ⟨k', x, ek, hx, hsame⟩ := findCtx_some e
    have hkk : k = k' := by omega
    subst hkk
    simp only [Nat.zero_add] at hm
    rw [hx] at hm
    simp only [] at hm
    have hmem : x ∈ s.ctxs := List.mem_of_getElem? hx
    have hown := hi.own x hmem
    rw [getPubFunc, if_neg hown.pub] at hm
    cases hm
    refine ⟨(x.1, x.2 + 1), List.mem_iff_getElem?.2 ⟨k, by simp [List.getElem?_set_self hk]⟩, rfl, p, hf, ?_⟩
    unfold Ctx.same at hsame
    have hex : Proto.exactlyEqual? x.1.orig p = some true := by
      cases he : Proto.exactlyEqual? x.1.orig p with
      | none => rw [he] at hsame; cases hsame
      | some b => cases b
                  · rw [he] at hsame; cases hsame
                  · rfl
    rw [hex] at hsame
    simp only [Option.some.injEq, Bool.and_eq_true, beq_iff_eq] at hsame
    refine ⟨?_, hex, hsame.1, hsame.2⟩
    unfold Proto.exactlyEqual? at hex
    split at hex
    · cases hex
    · rename_i hh
      simp only [not_or, Decidable.not_not] at hh
      rw [← hh.1, hown.version]
      omega

/-! ## Is it compatible with the request? -/

theorem ofNat_bit {n : Nat} (h : n < 2 ^ 32) (i : Nat) : (BitVec.ofNat 32 n).getLsbD i = n.testBit i := by
  rw [BitVec.getLsbD_ofNat]
  by_cases hi : i < 32
  · simp [hi]
  · have : n.testBit i = false := Nat.testBit_lt_two_pow (Nat.lt_of_lt_of_le h (Nat.pow_le_pow_right (by omega) (by omega)))
    simp [hi, this]

theorem realSize_bit (p : PassInfo) : SH.realSize p = if p.flags.testBit 1 = true then 8 else p.size := by
  unfold SH.realSize SH.flagByRef SH.ptrSize
  have : (p.flags &&& 2 ≠ 0) ↔ p.flags.testBit 1 = true := by
    constructor
    · intro h
      cases h1 : p.flags.testBit 1
      · refine absurd (Nat.eq_of_testBit_eq fun i => ?_) h
        rw [Nat.zero_testBit, Nat.testBit_and, show (2 : Nat) = 2 ^ 1 from rfl, Nat.testBit_two_pow]
        by_cases hi : 1 = i
        · subst hi; simp [h1]
        · simp [hi]
      · rfl
    · intro h h0
      have := congrArg (·.testBit 1) h0
      simp only [Nat.testBit_and, h] at this
      exact absurd this (by decide)
  simp only [this]

theorem ret64 (p : PassInfo) (h : p.flags < 2 ^ 32) :
    SH.realSize { p with flags := (Jit.autoDetect (pass64 p)).toNat } = SH.realSize p := by
  rw [realSize_bit, realSize_bit]
  have : (Jit.autoDetect (pass64 p)).toNat.testBit 1 = p.flags.testBit 1 := by
    rw [BitVec.testBit_toNat, Jit.autoDetect_only _ 1 (by omega) (by omega)]
    exact ofNat_bit h 1
  simp only [this]

theorem ret32 (p : PassInfo) (h : p.flags < 2 ^ 32) :
    SH.realSize { p with flags := (Jit32.autoDetect (pass32 p)).toNat } = SH.realSize p := by
  rw [realSize_bit, realSize_bit]
  have : (Jit32.autoDetect (pass32 p)).toNat.testBit 1 = p.flags.testBit 1 := by
    rw [BitVec.testBit_toNat, Jit32.autoDetect_only _ 1 (by omega) (by omega)]
    exact ofNat_bit h 1
  simp only [this]

theorem force_flags (q : PassInfo) (h : q.flags < 2 ^ 32) (i : Nat) : (Jit32.forceRef (pass32 q)).toNat.testBit i =
    (q.flags.testBit i || (decide (i = 30) && (decide (q.type = 3) && q.flags.testBit 0 && q.flags.testBit 2))) := by
  rw [BitVec.testBit_toNat, Jit32.forceRef_bits]
  have e : ∀ i, (pass32 q).flags.getLsbD i = q.flags.testBit i := ofNat_bit h
  simp only [e]
  have : (decide ((pass32 q).type = 3)) = decide (q.type = 3) := by
    have : (pass32 q).type = q.type.toNat := rfl
    rw [this]
    congr 1
    apply propext
    omega
  rw [this]

theorem force_same (q : PassInfo) (h : q.flags < 2 ^ 32) : (Jit32.forceRef (pass32 q)).toNat = q.flags ↔ ¬ Forced q := by
  constructor
  · rintro e ⟨h3, h0, h2, h30⟩
    have := force_flags q h 30
    rw [e, h30, h0, h2] at this
    simp [h3] at this
  · intro hf
    apply Nat.eq_of_testBit_eq
    intro i
    rw [force_flags q h]
    by_cases hi : i = 30
    · subst hi
      cases h30 : q.flags.testBit 30
      · cases h0 : q.flags.testBit 0
        · simp
        · cases h2 : q.flags.testBit 2
          · simp
          · have : ¬ q.type = 3 := fun h3 => hf ⟨h3, h0, h2, h30⟩
            simp [this]
      · simp
    · simp [hi]

theorem loop_map (f : PassInfo → PassInfo) : ∀ (ps : List PassInfo),
    (paramLoop SH.paramCompat ps.length (ps.map f) ps = some true ↔ ∀ q ∈ ps, SH.paramCompat (f q) q = true)
  | [] => by simp [paramLoop]
  | q :: qs => by
    simp only [List.length_cons, List.map_cons, paramLoop]
    by_cases h : SH.paramCompat (f q) q = true
    · rw [if_pos h, loop_map f qs]
      simp [h]
    · rw [if_neg h]
      simp [h]

/-- **C82.** 64 bits: what is handed over is compatible with what was asked for. -/
theorem compat64 (p : Proto) (hs : Small p) (hv : 0 ≤ p.version) (hn : p.numParams.toNat = p.params.length) :
    Proto.eq? (detect64 p) p = some true := by
  unfold Proto.eq?
  have e1 : SH.realSize (detect64 p).ret = SH.realSize p.ret := ret64 p.ret hs.1
  rw [if_neg (by show ¬ (p.version < 0 ∨ p.version < 0); omega), if_neg (by simp [detect64]), if_neg (by simp [detect64]),
    if_neg (by rw [e1]; simp)]
  show paramLoop SH.paramCompat p.numParams.toNat p.params p.params = some true
  rw [hn]
  have := (loop_map id p.params).2 (fun q _ => by
    unfold SH.paramCompat
    simp)
  simpa using this

/-- **C82.** 32 bits with GCC: what is handed over is compatible with what was asked for exactly if no parameter is an object
by value that is said to have a destructor: for those the generator's own flag (`PassFlag_ForcedByRef`) is left in the
flags handed to SourceHook, and `CProto::operator==` compares flags. -/
theorem compat32_iff (p : Proto) (hs : Small p) (hv : 0 ≤ p.version) (hn : p.numParams.toNat = p.params.length) :
    Proto.eq? (detect32 p) p = some true ↔ ∀ q ∈ p.params, ¬ Forced q := by
  unfold Proto.eq?
  have e1 : SH.realSize (detect32 p).ret = SH.realSize p.ret := ret32 p.ret hs.1
  rw [if_neg (by show ¬ (p.version < 0 ∨ p.version < 0); omega), if_neg (by simp [detect32]), if_neg (by simp [detect32]),
    if_neg (by rw [e1]; simp)]
  show paramLoop SH.paramCompat p.numParams.toNat (p.params.map _) p.params = some true ↔ _
  rw [hn, loop_map]
  constructor
  · intro h q hq hf
    have h1 := h q hq
    have hne : (Jit32.forceRef (pass32 q)).toNat ≠ q.flags := fun e => (force_same q (hs.2 q hq)).1 e hf
    unfold SH.paramCompat at h1
    have h3 := hf.1
    simp only [h3] at h1
    simp at h1
    exact hne h1.2
  · intro h q hq
    have e : (Jit32.forceRef (pass32 q)).toNat = q.flags := (force_same q (hs.2 q hq)).2 (h q hq)
    unfold SH.paramCompat
    rw [e]
    simp

/-- **C82**, finding: two hook managers for one and the same function — the one made by the generator and one made from the
request itself — do not count as compatible if the function takes an object with a destructor by value (32 bits, GCC). -/
theorem forced_incompatible : ∃ p : Proto, Small p ∧ p.version = 1 ∧ gen32.takes (gen32.detect p) = true ∧
    Proto.eq? (gen32.detect p) p = some false ∧ Proto.eq? p p = some true :=
  ⟨⟨1, 1, ⟨0, 0, 0, 0, 0, 0, 0⟩, [⟨8, 3, 5, 0, 0, 0x1000, 0⟩], 1⟩, ⟨by decide, by decide⟩, rfl, by decide, by decide, by decide⟩

/-! ## The frame -/

/-- **C82.** Every hook function the 64-bit generator writes has its variables where the frame of the model of that function
(`Jit.frame`, C65) has them: `AddVarToFrame` never starts where an earlier `Generate` ended. -/
theorem frames_laid_out {os : List Op} (h : ∀ o ∈ os, o.Fine) {s : Sys} (hs : run gen64 os Sys.init = .ok s) :
    ∀ f ∈ s.frames, f.2 = [-8, Jit.vEntry, Jit.vStatus, Jit.vPrev, Jit.vCur, Jit.vIter, Jit.vContext, Jit.vThis] ++
      (let fr := Jit.frame (pass64 f.1.ret)
       if f.1.ret.size = 0 then [] else [fr.retPtr, fr.memretPtr, fr.orig, fr.override, fr.plugin, fr.memRet]) := by
  intro f hf
  obtain ⟨s', hs', hi⟩ := inv_run gen64_ok os (inv_init gen64) h
  rw [hs] at hs'
  cases hs'
  rw [hi.frames f hf]
  have hz : (pass64 f.1.ret).size = f.1.ret.size := rfl
  simp only [gen64, vars64, Jit.frame, hz]
  by_cases h0 : f.1.ret.size = 0
  · simp [h0, List.replicate, offsets]
  · simp only [h0, if_false, List.replicate, List.cons_append, List.nil_append, offsets]
    simp only [Jit.vEntry, Jit.vStatus, Jit.vPrev, Jit.vCur, Jit.vIter, Jit.vContext, Jit.vThis, List.cons.injEq, and_true]
    omega

/-! ## Memory -/

theorem accounted_of_inv {g : Gen} {s : Sys} (hi : Inv g s) (h : s.lost = []) : Accounted s := by
  refine ⟨fun a => ?_, ?_⟩
  · rw [hi.live, h]
    simp only [List.not_mem_nil, or_false, allOwned, List.mem_flatMap, owned, List.mem_append]
    constructor
    · rintro ⟨x, hx, h1⟩
      refine ⟨x, hx, ?_⟩
      rcases h1 with h1 | h1 | h1
      · exact .inl h1
      · exact .inr (.inl (by simpa using h1))
      · exact .inr (.inr (by simpa using h1))
    · rintro ⟨x, hx, h1⟩
      refine ⟨x, hx, ?_⟩
      rcases h1 with h1 | h1 | h1
      · exact .inl h1
      · exact .inr (.inl (by simp [h1]))
      · exact .inr (.inr (by simp [h1]))
  · have := hi.nodup
    rw [h, List.append_nil] at this
    exact this

/-- **C82.** 32 bits: the memory held is that of the contexts of the table and nothing else. -/
theorem memory32 {os : List Op} (h : ∀ o ∈ os, o.Fine) {s : Sys} (hs : run gen32 os Sys.init = .ok s) :
    Accounted s := by
  obtain ⟨s', hs', hi⟩ := inv_run gen32_ok os (inv_init gen32) h
  rw [hs] at hs'
  cases hs'
  exact accounted_of_inv hi (hi.lost rfl)

/-- **C82.** 32 bits: when the table is destroyed nothing is left. -/
theorem all_freed32 {os : List Op} (h : ∀ o ∈ os, o.Fine) {s : Sys} (hs : run gen32 os Sys.init = .ok s) :
    ∃ m, destroyAll gen32 s.ctxs s.mem = .ok m ∧ ∀ a, m.blocks a = none := by
  obtain ⟨s', hs', hi⟩ := inv_run gen32_ok os (inv_init gen32) h
  rw [hs] at hs'
  cases hs'
  obtain ⟨m, lost, hm, hi'⟩ := inv_destroyAll s.ctxs rfl hi
  refine ⟨m, hm, fun a => ?_⟩
  have hl := hi'.lost rfl
  have := hi'.live a
  simp only at hl
  subst hl
  simp only [allOwned, List.flatMap_nil, List.not_mem_nil, or_false, iff_false, ne_eq, Decidable.not_not] at this
  exact this

theorem lost_step {g : Gen} {s s' : Sys} {o : Op} (h : step g s o = .ok s') : ∀ a ∈ s.lost, a ∈ s'.lost := by
  intro a ha
  cases o with
  | make pi offs idx code =>
    simp only [step, make] at h
    split at h
    · cases h
    · split at h
      · cases h
      · split at h
        · cases h
        · split at h
          · cases h
          · cases h; exact ha
      · split at h
        · cases h
        · split at h
          · cases h; exact ha
          · split at h
            · cases h
            · cases h; exact List.mem_append_left _ ha
  | release pub =>
    simp only [step, release] at h
    split at h
    · cases h; exact ha
    · split at h
      · split at h
        · cases h
        · cases h; exact List.mem_append_left _ ha
      · cases h; exact ha

theorem lost_run {g : Gen} : ∀ {os : List Op} {s s' : Sys}, run g os s = .ok s' → ∀ a ∈ s.lost, a ∈ s'.lost
  | [], s, s', h, a, ha => by cases h; exact ha
  | o :: os, s, s', h, a, ha => by
    rw [run] at h
    split at h
    · cases h
    · rename_i s1 e
      exact lost_run h a (lost_step e a ha)

theorem run_append {g : Gen} : ∀ (a b : List Op) (s : Sys), run g (a ++ b) s =
    match run g a s with | .error e => .error e | .ok s => run g b s
  | [], b, s => rfl
  | o :: os, b, s => by
    simp only [List.cons_append, run]
    cases step g s o with
    | error e => rfl
    | ok s1 => exact run_append os b s1

/-- **C82**, finding: 64 bits: when the last user of a generated hook manager releases it, the two arrays of its prototype
stay allocated, whatever happens afterwards, the destruction of the table included (the destructor does not call
`Clear`). -/
theorem released64_leaks {os : List Op} (h : ∀ o ∈ os, o.Fine) {s : Sys} (hs : run gen64 os Sys.init = .ok s) {pub : Nat}
    {l r : List (Ctx × Nat)} {c : Ctx} (hf : findPub pub s.ctxs = some (l, (c, 1), r)) (later : List Op)
    (hl : ∀ o ∈ later, o.Fine) :
    ∃ a b s' m, c.params = some a ∧ c.params2 = some b ∧ a ≠ b ∧ run gen64 (.release pub :: later) s = .ok s' ∧
      destroyAll gen64 s'.ctxs s'.mem = .ok m ∧
      s'.mem.blocks a ≠ none ∧ s'.mem.blocks b ≠ none ∧ m.blocks a ≠ none ∧ m.blocks b ≠ none := by
  obtain ⟨s0, hs0, hi⟩ := inv_run gen64_ok os (inv_init gen64) h
  rw [hs] at hs0
  cases hs0
  rcases findPub_spec pub s.ctxs with e | ⟨l', x, r', e, hsplit⟩
  · rw [e] at hf; cases hf
  rw [hf] at e
  cases e
  have hown := hi.own (c, 1) (by rw [hsplit]; simp)
  obtain ⟨a, b, hh⟩ := hown.holds
  have hea : c.params = some a := hh.ea
  have heb : c.params2 = some b := hh.eb
  have hne : a ≠ b := by
    intro e
    have h1 := hh.pa
    have h2 := hh.pb
    rw [e, h2] at h1
    cases h1
  obtain ⟨m1, hd, hi1⟩ := inv_destroy hi hsplit
  have hr : release gen64 pub s = .ok { s with mem := m1, ctxs := l ++ r, lost := s.lost ++ left gen64 c } := by
    unfold release
    rw [hf]
    simp only [Nat.sub_self, if_true]
    rw [hd]
  have hleft : left gen64 c = [a, b] := by unfold left; rw [hea, heb]; rfl
  obtain ⟨s', hs', hi'⟩ := inv_run gen64_ok later hi1 hl
  have hla : a ∈ s'.lost := lost_run hs' a (by simp [hleft])
  have hlb : b ∈ s'.lost := lost_run hs' b (by simp [hleft])
  have hdall : ∀ (k : List (Ctx × Nat)) (t : Sys), t.ctxs = k → Inv gen64 t → a ∈ t.lost → b ∈ t.lost →
      ∃ m, destroyAll gen64 k t.mem = .ok m ∧ m.blocks a ≠ none ∧ m.blocks b ≠ none := by
    intro k
    induction k with
    | nil => intro t _ ht ha hb; exact ⟨t.mem, rfl, (ht.live a).2 (.inr ha), (ht.live b).2 (.inr hb)⟩
    | cons x k ih =>
      intro t ht hinv ha hb
      obtain ⟨m2, hd2, hi2⟩ := inv_destroy hinv (a := []) (b := k) (x := x) ht
      obtain ⟨m3, hd3, h3, h4⟩ := ih { t with mem := m2, ctxs := k, lost := t.lost ++ left gen64 x.1 } rfl hi2
        (List.mem_append_left _ ha) (List.mem_append_left _ hb)
      exact ⟨m3, by rw [destroyAll, hd2]; exact hd3, h3, h4⟩
  obtain ⟨m, hm, h1, h2⟩ := hdall s'.ctxs s' rfl hi' hla hlb
  refine ⟨a, b, s', m, hea, heb, hne, ?_, hm, (hi'.live a).2 (.inr hla), (hi'.live b).2 (.inr hlb), h1, h2⟩
  rw [run]
  have : step gen64 s (.release pub) = release gen64 pub s := rfl
  rw [this, hr]
  exact hs'

/-! ## Examples -/

/-- No counterpart in /repo: a request `int f(int)`, version 2 of the structure. -/
def exReq : ProtoInfo := ⟨1, ⟨4, 1, 1, 0, 0, 0, 0⟩, 1, [⟨4, 1, 1, 0, 0, 0, 0⟩], 1⟩
/-- No counterpart in /repo: a request with an object by value that has a destructor. -/
def exObj : ProtoInfo := ⟨1, ⟨0, 0, 0, 0, 0, 0, 0⟩, 1, [⟨8, 3, 5, 0, 0, 0x1000, 0⟩], 1⟩

example : ∀ o ∈ [Op.make exReq 0 3 0x5000, .make exReq 0 3 0, .make exObj 0 4 0x6000, .release 0x5000], o.Fine := by
  intro o ho
  simp only [List.mem_cons, List.not_mem_nil, or_false] at ho
  rcases ho with h | h | h | h <;> subst h <;> first | exact trivial | exact ⟨by decide, by decide⟩

/-- No counterpart in /repo: the number of contexts, with their counts, after some calls. -/
def exTable (g : Gen) (os : List Op) : Option (List (Nat × Nat)) :=
  match run g os Sys.init with
  | .ok s => some (s.ctxs.map fun x => (x.1.pub, x.2))
  | .error _ => none

example : exTable gen64 [.make exReq 0 3 0x5000, .make exReq 0 3 0, .make exObj 0 4 0x6000] = some [(0x5000, 2), (0x6000, 1)] := by
  decide +kernel
example : exTable gen32 [.make exReq 0 3 0x5000, .make exReq 0 3 0, .make exObj 0 4 0x6000, .release 0x6000] =
    some [(0x5000, 2)] := by decide +kernel
example : Readable exReq ∧ Small ⟨1, 1, exReq.retInfo, exReq.params, 1⟩ := ⟨⟨by decide, by decide⟩, by decide, by decide⟩
example : Forced ⟨8, 3, 5, 0, 0, 0x1000, 0⟩ := ⟨rfl, by decide, by decide, by decide⟩
example : ¬ Forced ⟨4, 1, 1, 0, 0, 0, 0⟩ := fun h => by simp [Forced] at h
/-- No counterpart in /repo: the last user releases a function of the 64-bit generator. -/
example : (match run gen64 [.make exReq 0 3 0x5000] Sys.init with
    | .ok s => (findPub 0x5000 s.ctxs).map fun r => (r.1.length, r.2.1.2, r.2.2.length)
    | .error _ => none) = some (0, 1, 0) := by decide +kernel
/-- No counterpart in /repo: the answer is not 0. -/
example : (match make gen32 exReq 0 3 0x5000 Sys.init with | .ok (_, r) => r | .error _ => 0) = 0x5000 := by decide +kernel
example : (match run gen64 [.make exReq 0 3 0x5000] Sys.init with
    | .ok s => s.frames.map (·.2) | .error _ => []) = [[-8, -16, -24, -32, -40, -48, -56, -64, -72, -80, -96, -112, -128, -144]] := by
  decide +kernel

/-- After `Clear` nothing is owned any more, so that clearing again deletes nothing. -/
theorem clear_again {c c' : Ctx} {m m' : Mem} (h : clear c m = .ok (m', c')) :
    c'.params = none ∧ c'.params2 = none ∧ clear c' m' = .ok (m', c') := by
  rw [clear] at h
  split at h
  · cases h
  · split at h
    · cases h
    · cases h
      exact ⟨rfl, rfl, rfl⟩

/-- Clearing a context that owns its two arrays. -/
example : ∃ m', clear (Ctx.mk default default 0 0 0 0 (some 3) (some 4) 1 2 0 0)
      ⟨fun a => if a = 3 then some (.passes []) else if a = 4 then some (.ctors []) else none, 5⟩ =
    .ok (m', Ctx.mk default default 0 0 0 0 none none 1 2 0 0) := ⟨_, rfl⟩

/-- The memory of the model tells `delete` from `delete[]` and notices a block that is not there: the theorems above that say that no step fails say
that each block is deleted at most once and in its own form. -/
theorem delete_checked (m : Mem) (arr : Bool) (a : Nat) :
    (∀ m', m.delete arr a = .ok m' ↔ (∃ b, m.blocks a = some b ∧ b.isArray = arr) ∧ m' = { m with blocks := fun x => if x = a then none else m.blocks x }) := by
  intro m'
  rw [Mem.delete]
  cases e : m.blocks a with
  | none => simp
  | some b =>
    by_cases h : b.isArray = arr
    · simp only [h, if_true, Except.ok.injEq]
      exact ⟨fun g => ⟨⟨b, rfl, h⟩, g.symm⟩, fun g => g.2.symm⟩
    · simp only [h, if_false]
      refine ⟨fun g => (by cases g), fun g => ?_⟩
      obtain ⟨⟨b', hb, hb'⟩, _⟩ := g
      cases hb
      exact absurd hb' h

/-- An array is deleted as an array only. -/
example : (Mem.mk (fun a => if a = 3 then some (.passes []) else none) 4).delete false 3 = .error .form := rfl

end Verif.Gen

#print axioms Verif.Gen.takes64_accepts
#print axioms Verif.Gen.takes32_accepts
#print axioms Verif.Gen.generators_defined
#print axioms Verif.Gen.built_read_back
#print axioms Verif.Gen.answer_fits
#print axioms Verif.Gen.compat64
#print axioms Verif.Gen.compat32_iff
#print axioms Verif.Gen.forced_incompatible
#print axioms Verif.Gen.frames_laid_out
#print axioms Verif.Gen.memory32
#print axioms Verif.Gen.all_freed32
#print axioms Verif.Gen.released64_leaks
