import Verif.Jit.HookFunc
import Verif.Jit.PubProps
/-
Helper lemmas for C65: the generated hook function with the distances of its jumps filled in.
-/
namespace Verif.Jit

/-- What a loop does before it tests whether there is a hook. -/
def loopHead (g : Gen) : List Op := nextOps g ++ [.test rax rax]

/-- What a loop does for a hook, up to the override. -/
def loopBody (g : Gen) : List Op := hookOps g ++ saveOps g (frame g.ret).plugin ++ statusOps

/-- The test in front of the override. -/
def overrideTest : List Op := [.movImm rax (i32 2), .cmpStore (at_ rbp vCur) rax]

/-- The override, `n` bytes behind the start of the loop. -/
def overrideOps (g : Gen) (n : Nat) : List Op :=
  if g.ret.size = 0 then []
  else overrideTest ++ .jl (i32 (-((n + size (overrideTest ++ [.jl (i32 0)]) : Nat) : Int)))
    :: (overridePtr g ++ overrideSet g)

/-- The distance from the start of the loop to the override. -/
def overrideAt (g : Gen) : Nat := size (loopHead g ++ [.jz (i32 0)] ++ loopBody g)

/-- What follows the test for a hook, without the jump at the end. -/
def loopRest (g : Gen) : List Op := loopBody g ++ overrideOps g (overrideAt g)

/-- The distance from the start of the loop to its end. -/
def loopSize (g : Gen) : Nat :=
  size (loopHead g ++ [.jz (i32 0)] ++ loopRest g ++ [.jump (i32 0)])

/-- The loop. -/
def loopOps (g : Gen) : List Op :=
  loopHead g ++ .jz (i32 (size (loopRest g ++ [.jump (i32 0)])))
    :: (loopRest g ++ [.jump (i32 (-(loopSize g : Int)))])

/-- `GenerateCallHooks`. -/
def callHooksOps (g : Gen) : List Op := .storeImm (at_ rbp vPrev) (i32 0) :: loopOps g

/-- The call of the original function and the jump over the other branch. -/
def origPart (g : Gen) : List Op := origOps g ++ [.jump (i32 (size (elseOps g)))]

/-- `ShouldCallOrig` and what follows. -/
def shouldPart (g : Gen) : List Op := shouldOps g ++ .jz (i32 (size (origPart g))) :: origPart g

/-- `GenerateCallOrig`. -/
def callOrigOps (g : Gen) : List Op :=
  [.load rax (at_ rbp vStatus), .cmpImm rax (i32 3)]
    ++ .je (i32 (size (shouldPart g))) :: (shouldPart g ++ elseOps g)

/-- The code in front of the first loop. -/
def firstOps (g : Gen) : List Op := prologue g ++ constructOps g ++ initOps ++ setupOps g

/-- The code behind the second loop. -/
def lastOps (g : Gen) : List Op :=
  prepareOps g ++ endOps g ++ paramDtors (firstReg g.ret) g.params ++ returnOps g ++ retDtors g
    ++ epilogue g

/-- The whole function. -/
def hookFuncOps (g : Gen) : List Op :=
  firstOps g ++ (callHooksOps g ++ (callOrigOps g ++ (callHooksOps g ++ lastOps g)))

/-! ## Filling in the distances -/

theorem emit_emit (b : List Byte) (x y : List Op) : emit (emit b x) y = emit b (x ++ y) := by
  simp [emit]

theorem emit_length (b : List Byte) (x : List Op) : (emit b x).length = b.length + size x := by
  simp [emit, size]

theorem emit_nil (b : List Byte) : emit b [] = b := by simp [emit]

theorem size_nil : size [] = 0 := rfl

/-- Filling in the distance of one jump. -/
theorem patch {o o' : Op} {d' : BitVec 32}
    (h : ∀ b a : List Byte, rewrite32 (b ++ o.bytes ++ a) ((b ++ o.bytes).length - 4) d'
      = some (b ++ o'.bytes ++ a))
    (b : List Byte) (pre post : List Op) (n : Nat)
    (hn : n = b.length + size pre + size [o]) :
    rewrite32 (emit b (pre ++ o :: post)) (n - 4) d' = some (emit b (pre ++ o' :: post)) := by
  have := h (b ++ pre.flatMap Op.bytes) (post.flatMap Op.bytes)
  rw [show (b ++ pre.flatMap Op.bytes ++ o.bytes).length = n by
    simp only [List.length_append, hn, size, List.flatMap_cons, List.flatMap_nil, List.append_nil]] at this
  simpa [emit] using this

theorem patch_jz' (d d' : BitVec 32) (b : List Byte) (pre post : List Op) (n : Nat)
    (hn : n = b.length + size pre + size [.jz d]) :
    rewrite32 (emit b (pre ++ .jz d :: post)) (n - 4) d' = some (emit b (pre ++ .jz d' :: post)) :=
  patch (o := .jz d) (o' := .jz d') (fun b a => rewrite_jcc b a d d' (byte 0x84)) b pre post n hn

theorem patch_je (d d' : BitVec 32) (b : List Byte) (pre post : List Op) (n : Nat)
    (hn : n = b.length + size pre + size [.je d]) :
    rewrite32 (emit b (pre ++ .je d :: post)) (n - 4) d' = some (emit b (pre ++ .je d' :: post)) :=
  patch (o := .je d) (o' := .je d') (fun b a => rewrite_jcc b a d d' (byte 0x84)) b pre post n hn

theorem patch_jl (d d' : BitVec 32) (b : List Byte) (pre post : List Op) (n : Nat)
    (hn : n = b.length + size pre + size [.jl d]) :
    rewrite32 (emit b (pre ++ .jl d :: post)) (n - 4) d' = some (emit b (pre ++ .jl d' :: post)) :=
  patch (o := .jl d) (o' := .jl d') (fun b a => rewrite_jcc b a d d' (byte 0x8C)) b pre post n hn

theorem patch_jump (d d' : BitVec 32) (b : List Byte) (pre post : List Op) (n : Nat)
    (hn : n = b.length + size pre + size [.jump d]) :
    rewrite32 (emit b (pre ++ .jump d :: post)) (n - 4) d'
      = some (emit b (pre ++ .jump d' :: post)) :=
  patch (o := .jump d) (o' := .jump d') (fun b a => rewrite_jump b a d d') b pre post n hn

/-- The length of a jump does not depend on the distance. -/
theorem size_jz (d : BitVec 32) : size [.jz d] = 6 := by
  simp [size, Op.bytes, Enc.jz, bytes32]
theorem size_jl (d : BitVec 32) : size [.jl d] = 6 := by
  simp [size, Op.bytes, Enc.jl, bytes32]
theorem size_je (d : BitVec 32) : size [.je d] = 6 := by
  simp [size, Op.bytes, Enc.je, bytes32]
theorem size_jump (d : BitVec 32) : size [.jump d] = 5 := by
  simp [size, Op.bytes, Enc.jump, bytes32]
theorem len_jz (d : BitVec 32) : (Op.jz d).bytes.length = 6 := by
  simp [Op.bytes, Enc.jz, bytes32]
theorem len_jl (d : BitVec 32) : (Op.jl d).bytes.length = 6 := by
  simp [Op.bytes, Enc.jl, bytes32]
theorem len_je (d : BitVec 32) : (Op.je d).bytes.length = 6 := by
  simp [Op.bytes, Enc.je, bytes32]
theorem len_jump (d : BitVec 32) : (Op.jump d).bytes.length = 5 := by
  simp [Op.bytes, Enc.jump, bytes32]

theorem overrideBytes_eq (g : Gen) (start : Nat) (b : List Byte) (h : start ≤ b.length) :
    overrideBytes g start b = some (emit b (overrideOps g (b.length - start))) := by
  unfold overrideBytes overrideOps
  split
  · simp [emit]
  · simp only []
    rw [← overrideTest]
    rw [patch_jl _ _ b overrideTest [] _ (by rw [emit_length, size_append]; omega),
      Option.bind_some, emit_emit, emit_length]
    rw [show b.length + size (overrideTest ++ [Op.jl (i32 0)]) - start
      = b.length - start + size (overrideTest ++ [Op.jl (i32 0)]) by omega]
    simp

theorem callHooksBytes_eq (g : Gen) (b : List Byte) :
    callHooksBytes g b = some (emit b (callHooksOps g)) := by
  unfold callHooksBytes
  simp only []
  rw [overrideBytes_eq _ _ _ (by simp only [emit_length]; omega), Option.bind_some]
  rw [← loopHead, ← loopBody]
  simp only [List.nil_append, emit_emit, emit_length]
  have e1 : b.length + size ([.storeImm (at_ rbp vPrev) (i32 0)] ++ (loopHead g ++ [.jz (i32 0)])
        ++ loopBody g) - (b.length + size [.storeImm (at_ rbp vPrev) (i32 0)]) = overrideAt g := by
    simp only [overrideAt, size_append]
    omega
  rw [e1]
  have e2 : b.length + size ([.storeImm (at_ rbp vPrev) (i32 0)] ++ (loopHead g ++ [.jz (i32 0)])
        ++ loopBody g ++ overrideOps g (overrideAt g) ++ [.jump (i32 0)])
      - (b.length + size [.storeImm (at_ rbp vPrev) (i32 0)]) = loopSize g := by
    simp only [loopSize, loopRest, size_append]
    omega
  rw [e2]
  rw [patch_jump _ _ b _ [] _ (by simp only [size_append]; omega), Option.bind_some, emit_length]
  have e3 : b.length + size ([.storeImm (at_ rbp vPrev) (i32 0)] ++ (loopHead g ++ [.jz (i32 0)])
        ++ loopBody g ++ overrideOps g (overrideAt g) ++ [.jump (i32 (-(loopSize g : Int)))])
      - (b.length + size ([.storeImm (at_ rbp vPrev) (i32 0)] ++ (loopHead g ++ [.jz (i32 0)])))
      = size (loopRest g ++ [.jump (i32 0)]) := by
    simp only [loopRest, size_append, size_jump]
    omega
  rw [e3]
  have e4 : ([.storeImm (at_ rbp vPrev) (i32 0)] ++ (loopHead g ++ [.jz (i32 0)])
        ++ loopBody g ++ overrideOps g (overrideAt g) ++ [.jump (i32 (-(loopSize g : Int)))])
      = (.storeImm (at_ rbp vPrev) (i32 0) :: loopHead g) ++ .jz (i32 0) ::
        (loopRest g ++ [.jump (i32 (-(loopSize g : Int)))]) := by
    simp [loopRest]
  rw [e4, patch_jz' _ _ b _ _ _ (by simp only [size_append, size_cons, size_nil]; omega)]
  rfl

theorem callOrigBytes_eq (g : Gen) (b : List Byte) :
    callOrigBytes g b = some (emit b (callOrigOps g)) := by
  unfold callOrigBytes
  simp only [emit_emit, emit_length]
  have e1 : b.length + size ([.load rax (at_ rbp vStatus), .cmpImm rax (i32 3)] ++ [.je (i32 0)]
        ++ (shouldOps g ++ [.jz (i32 0)]) ++ (origOps g ++ [.jump (i32 0)]))
      - (b.length + size ([.load rax (at_ rbp vStatus), .cmpImm rax (i32 3)] ++ [.je (i32 0)]))
      = size (shouldPart g) := by
    simp only [shouldPart, origPart, size_append, size_cons, size_nil, len_jz, len_jump]
    omega
  have e2 : b.length + size ([.load rax (at_ rbp vStatus), .cmpImm rax (i32 3)] ++ [.je (i32 0)]
        ++ (shouldOps g ++ [.jz (i32 0)]) ++ (origOps g ++ [.jump (i32 0)]))
      - (b.length + size ([.load rax (at_ rbp vStatus), .cmpImm rax (i32 3)] ++ [.je (i32 0)]
        ++ (shouldOps g ++ [.jz (i32 0)])))
      = size (origPart g) := by
    simp only [origPart, size_append, size_cons, size_nil, len_jz, len_jump]
    omega
  rw [e1, e2]
  have e3 : [.load rax (at_ rbp vStatus), .cmpImm rax (i32 3)] ++ [.je (i32 0)]
        ++ (shouldOps g ++ [.jz (i32 0)]) ++ (origOps g ++ [.jump (i32 0)])
      = [.load rax (at_ rbp vStatus), .cmpImm rax (i32 3)] ++ .je (i32 0) ::
        (shouldOps g ++ [.jz (i32 0)] ++ (origOps g ++ [.jump (i32 0)])) := by simp
  rw [e3, patch_je _ _ b _ _ _ (by simp only [size_append]; omega), Option.bind_some]
  have e4 : ∀ d, [.load rax (at_ rbp vStatus), .cmpImm rax (i32 3)] ++ .je d ::
        (shouldOps g ++ [.jz (i32 0)] ++ (origOps g ++ [.jump (i32 0)]))
      = ([.load rax (at_ rbp vStatus), .cmpImm rax (i32 3)] ++ .je d :: shouldOps g) ++ .jz (i32 0)
        :: (origOps g ++ [.jump (i32 0)]) := by simp
  rw [e4, patch_jz' _ _ b _ _ _ (by
    simp only [size_append, size_cons, size_nil, len_je]; omega), Option.bind_some]
  simp only [emit_emit, emit_length]
  have e5 : ∀ d d', ([.load rax (at_ rbp vStatus), .cmpImm rax (i32 3)] ++ .je d :: shouldOps g)
        ++ .jz d' :: (origOps g ++ [.jump (i32 0)]) ++ elseOps g
      = ([.load rax (at_ rbp vStatus), .cmpImm rax (i32 3)] ++ .je d :: shouldOps g ++ .jz d'
        :: origOps g) ++ .jump (i32 0) :: elseOps g := by simp
  rw [e5, patch_jump _ _ b _ _ _ (by
    simp only [size_append, size_cons, size_nil, len_je, len_jz, len_jump]; omega)]
  have e6 : ∀ x y z w, b.length + size ([.load rax (at_ rbp vStatus), .cmpImm rax (i32 3)] ++
        .je x :: shouldOps g ++ .jz y :: (origOps g ++ [.jump z])) + size (elseOps g)
      - (b.length + size ([.load rax (at_ rbp vStatus), .cmpImm rax (i32 3)] ++ .je w ::
        (shouldOps g ++ [.jz (i32 0)] ++ (origOps g ++ [.jump (i32 0)])))) = size (elseOps g) := by
    intro x y z w
    simp only [size_append, size_cons, size_nil, len_je, len_jz, len_jump]
    omega
  rw [e6]
  simp [callOrigOps, shouldPart, origPart]

/-- The generator succeeds; the code is the sequence of instructions above. -/
theorem generateHookFunc_eq (g : Gen) :
    generateHookFunc g = some ((hookFuncOps g).flatMap Op.bytes) := by
  unfold generateHookFunc
  simp only []
  rw [callHooksBytes_eq, Option.bind_some, callOrigBytes_eq, Option.bind_some, callHooksBytes_eq,
    Option.bind_some]
  simp [emit, hookFuncOps, firstOps, lastOps]

end Verif.Jit
