import Verif.Jit32.HookLoop
/-
Helper lemmas for C76: the bytes of the generated hook function are those of a sequence of
instructions with the distances of the jumps filled in; the writer can express all of them.
-/
namespace Verif.Jit32

open Verif.Jit (Byte bytes32 rewrite32 flagByVal flagByRef flagODtor flagOCtor flagAssignOp flagCCtor
  flagRetMem flagRetReg typeBasic typeFloat typeObject)
open Spec

/-! ## Writing -/

theorem rewrite_mid (a c : List Byte) (v w : W) {n : Nat} (hn : n = a.length) :
    rewrite32 (a ++ bytes32 v ++ c) n w = some (a ++ bytes32 w ++ c) := by
  subst hn
  unfold rewrite32
  have e : (bytes32 v).length = (bytes32 w).length := rfl
  have e4 : (bytes32 w).length = 4 := rfl
  rw [if_pos (by simp only [List.length_append, e, e4]; omega)]
  have := take_drop_mid a (bytes32 v) c (bytes32 w) e
  rw [e4] at this
  rw [this]

theorem jumpBack_writes (b : List Byte) (n start : Nat) (h : b.length + 5 - start = n) :
    jumpBack start b = some (b ++ [Op.jmp32 (i32 (-(n : Int)))].flatMap Op.bytes) := by
  unfold jumpBack
  have e : ∀ d, (Op.jmp32 d).bytes = [Verif.Jit.byte 0xE9] ++ bytes32 d := fun _ => rfl
  have e4 : ∀ d, (bytes32 d).length = 4 := fun _ => rfl
  have := rewrite_mid (b ++ [Verif.Jit.byte 0xE9]) [] (i32 0) (i32 (-(n : Int)))
    (n := (b ++ (Op.jmp32 (i32 0)).bytes).length - 4) (by simp [e, e4])
  have hl : (b ++ (Op.jmp32 (i32 0)).bytes).length - start = n := by
    simp only [e, List.length_append, e4, List.length_cons, List.length_nil]; omega
  simp only [hl]
  simpa [e] using this

theorem over32_at {x : Writer} {a : List Op} {b : List Byte} (c : Fin 16)
    (hx : x (b ++ (Op.jcc32 c (i32 0)).bytes)
      = some (b ++ (Op.jcc32 c (i32 0)).bytes ++ a.flatMap Op.bytes)) :
    over32 c x b = some (b ++ (Op.jcc32 c (i32 (size a)) :: a).flatMap Op.bytes) := by
  have hw : Writes (fun l => if l = b ++ (Op.jcc32 c (i32 0)).bytes then x l
      else some (l ++ a.flatMap Op.bytes)) a := by
    intro l
    simp only
    split
    · rename_i h; rw [h]; exact hx
    · rfl
  have := hw.over32 c b
  unfold over32 at this ⊢
  simp only [if_true] at this
  exact this

theorem loopStatus_writes : Writes loopStatus statusOps :=
  (out_writes _).andThen ((out_writes _).over8 14)

theorem processRet_writes (g : Gen) : Writes (processRet g) (overrideOps g) := by
  unfold processRet overrideOps
  split
  · exact out_writes _
  · exact (out_writes _).andThen ((out_writes _).over8 12)

theorem callHooks_writes (g : Gen) (c : Nat) :
    Writes (Jit32.callHooks g (pushParams g c)) (.movD8Imm ebp 0 (i8 vPrev) :: loopOps g c) := by
  intro b
  unfold Jit32.callHooks
  simp only
  generalize hb : b ++ [Op.movD8Imm ebp 0 (i8 vPrev)].flatMap Op.bytes = b₀
  have key := over32_at (x := andThen (out (hookCall g (pushParams g c))) (andThen loopStatus
      (andThen (processRet g) (jumpBack b₀.length)))) (b := b₀ ++ loopHead.flatMap Op.bytes) (c := 4)
      (a := bodyOps g c ++ [.jmp32 (i32 (-((size loopHead + 6 + size (bodyOps g c) + 5 : Nat) : Int)))]) ?_
  · show over32 4 _ (b₀ ++ loopHead.flatMap Op.bytes) = _
    rw [key]
    have es : size (bodyOps g c ++ [.jmp32 (i32 (-((size loopHead + 6 + size (bodyOps g c) + 5 : Nat) : Int)))])
        = size (bodyOps g c) + 5 := by
      rw [size_append]; rfl
    rw [es, ← hb]
    unfold loopOps whileOps
    have el : size [.movRegAuto ecx ebp (i32 vCtx), .push ecx, .movRegRm eax ecx 0, .movRegRm eax eax 0,
      .call eax, .pop ecx] + (Op.testRmReg eax eax 3).bytes.length = size loopHead := rfl
    rw [el]
    simp only [List.flatMap_cons, List.flatMap_append, List.append_assoc, List.flatMap_nil, loopHead,
      List.nil_append]
  · simp only [andThen, out, Option.bind_some, loopStatus_writes _, processRet_writes g _]
    rw [jumpBack_writes _ (size loopHead + 6 + size (bodyOps g c) + 5)]
    · unfold bodyOps
      simp only [List.flatMap_append, List.append_assoc]
    · unfold bodyOps
      have h6 : (Op.jcc32 4 (i32 0)).bytes.length = 6 := rfl
      simp only [List.length_append, size_append, h6]
      unfold size
      omega

theorem patch3 {x y w z : List Byte} {o v₁ v₂ v₃ : W} {n₁ n₂ n₃ : Nat} {f : List Byte → W}
    (h1 : n₁ = x.length) (h2 : n₂ = x.length + 4 + y.length)
    (h3 : n₃ = x.length + 4 + y.length + 4 + w.length)
    (hf : ∀ l, l.length = n₃ + 4 + z.length → f l = v₃) :
    ((rewrite32 (x ++ bytes32 o ++ y ++ bytes32 o ++ w ++ bytes32 o) n₁ v₁).bind fun b₄ =>
      (rewrite32 b₄ n₂ v₂).bind fun b₅ => rewrite32 (b₅ ++ z) n₃ (f (b₅ ++ z)))
    = some (x ++ bytes32 v₁ ++ y ++ bytes32 v₂ ++ w ++ bytes32 v₃ ++ z) := by
  have e4 : ∀ d, (bytes32 d).length = 4 := fun _ => rfl
  have g1 := rewrite_mid x (y ++ bytes32 o ++ w ++ bytes32 o) o v₁ h1
  have g2 := rewrite_mid (x ++ bytes32 v₁ ++ y) (w ++ bytes32 o) o v₂ (n := n₂)
    (by simp only [List.length_append, e4]; omega)
  have g3 := rewrite_mid (x ++ bytes32 v₁ ++ y ++ bytes32 v₂ ++ w) z o v₃ (n := n₃)
    (by simp only [List.length_append, e4]; omega)
  simp only [List.append_assoc] at g1 g2 g3 ⊢
  rw [g1, Option.bind_some, g2, Option.bind_some, hf]
  · simp only [List.append_assoc]; exact g3
  simp only [List.length_append, e4]; omega

theorem callOrig_writes (g : Gen) (c : Nat) :
    Writes (Jit32.callOrig g (pushParams g c)) (origOps g c) := by
  intro b
  have ej : ∀ d, (Op.jmp32 d).bytes = [Verif.Jit.byte 0xE9] ++ bytes32 d := fun _ => rfl
  have ec : ∀ d, (Op.jcc32 4 d).bytes
      = [Verif.Jit.byte 0x0F, Verif.Jit.byte 0x84] ++ bytes32 d := fun _ => rfl
  have e4 : ∀ d, (bytes32 d).length = 4 := fun _ => rfl
  have h1 : b ++ (origTest ++ [Op.jcc32 4 (i32 0)]).flatMap Op.bytes
      = (b ++ origTest.flatMap Op.bytes ++ [Verif.Jit.byte 0x0F, Verif.Jit.byte 0x84])
        ++ bytes32 (i32 0) := by
    simp [ec]
  have h2 : ∀ l, l ++ (origAsk ++ [Op.jcc32 4 (i32 0)]).flatMap Op.bytes
      = l ++ (origAsk.flatMap Op.bytes ++ [Verif.Jit.byte 0x0F, Verif.Jit.byte 0x84])
        ++ bytes32 (i32 0) := by
    simp [ec]
  have h3 : ∀ l, l ++ (origCall g (pushParams g c) ++ [Op.jmp32 (i32 0)]).flatMap Op.bytes
      = l ++ ((origCall g (pushParams g c)).flatMap Op.bytes ++ [Verif.Jit.byte 0xE9])
        ++ bytes32 (i32 0) := by
    simp [ej]
  unfold Jit32.callOrig
  simp only [h1, h2, h3]
  have l2 : ∀ a b : Byte, [a, b].length = 2 := fun _ _ => rfl
  have l1 : ∀ a : Byte, [a].length = 1 := fun _ => rfl
  refine (patch3 (f := fun l => i32 ((l.length - (b ++ origTest.flatMap Op.bytes
      ++ [Verif.Jit.byte 0x0F, Verif.Jit.byte 0x84] ++ bytes32 (i32 0) ++ (origAsk.flatMap Op.bytes
      ++ [Verif.Jit.byte 0x0F, Verif.Jit.byte 0x84]) ++ bytes32 (i32 0)
      ++ ((origCall g (pushParams g c)).flatMap Op.bytes ++ [Verif.Jit.byte 0xE9])
        ++ bytes32 (i32 0)).length : Nat) : Int))
      (v₃ := i32 (size (Jit32.origElse g))) ?_ ?_ ?_ ?_).trans ?_
  · simp only [List.length_append, e4, l2, l1]; omega
  · simp only [List.length_append, e4, l2, l1]; omega
  · simp only [List.length_append, e4, l2, l1]; omega
  · intro l hl
    congr 2
    rw [hl]
    simp only [List.length_append, e4, l2, l1, size]; omega
  · have ea : size [.movRegAuto ecx ebp (i32 vCtx), .push ecx, .movRegRm eax ecx 0,
        .movRegD8 eax eax (i8 12), .call eax, .pop ecx] + (Op.test8RmReg eax eax 3).bytes.length
        = (origAsk.flatMap Op.bytes).length := rfl
    have d1 : ((b ++ origTest.flatMap Op.bytes ++ [Verif.Jit.byte 0x0F, Verif.Jit.byte 0x84]
        ++ bytes32 (i32 0) ++ (origAsk.flatMap Op.bytes
      ++ [Verif.Jit.byte 0x0F, Verif.Jit.byte 0x84]) ++ bytes32 (i32 0)
      ++ ((origCall g (pushParams g c)).flatMap Op.bytes ++ [Verif.Jit.byte 0xE9])
        ++ bytes32 (i32 0)).length - (b ++ origTest.flatMap Op.bytes
        ++ [Verif.Jit.byte 0x0F, Verif.Jit.byte 0x84] ++ bytes32 (i32 0)).length : Nat)
        = size [.movRegAuto ecx ebp (i32 vCtx), .push ecx, .movRegRm eax ecx 0,
        .movRegD8 eax eax (i8 12), .call eax, .pop ecx] + (Op.test8RmReg eax eax 3).bytes.length + 6
        + size (origCall g (pushParams g c)) + 5 := by
      rw [ea]
      simp only [List.length_append, e4, l2, l1, size]; omega
    have d2 : ((b ++ origTest.flatMap Op.bytes ++ [Verif.Jit.byte 0x0F, Verif.Jit.byte 0x84]
        ++ bytes32 (i32 0) ++ (origAsk.flatMap Op.bytes
      ++ [Verif.Jit.byte 0x0F, Verif.Jit.byte 0x84]) ++ bytes32 (i32 0)
      ++ ((origCall g (pushParams g c)).flatMap Op.bytes ++ [Verif.Jit.byte 0xE9])
        ++ bytes32 (i32 0)).length - (b ++ origTest.flatMap Op.bytes
        ++ [Verif.Jit.byte 0x0F, Verif.Jit.byte 0x84] ++ bytes32 (i32 0) ++ (origAsk.flatMap Op.bytes
      ++ [Verif.Jit.byte 0x0F, Verif.Jit.byte 0x84]) ++ bytes32 (i32 0)).length : Nat)
        = size (origCall g (pushParams g c)) + 5 := by
      simp only [List.length_append, e4, l2, l1, size]; omega
    rw [d1, d2]
    unfold origOps condOps
    simp only [List.flatMap_append, List.flatMap_cons, List.flatMap_nil, ej, ec, List.append_nil,
      List.append_assoc, origTest, origAsk, List.cons_append, List.nil_append]

/-! ## The whole code -/

/-- No counterpart in /repo: the code before the loops, without the prologue. -/
def firstOps (g : Gen) : List Op :=
  (.movD8Imm ebp 0 (i8 vStatus) :: (vaStart g ++ vaFormat g)) ++ (constructOps g ++ setupOps g)

/-- No counterpart in /repo: the counter of the registers before the second and the third use of the
parameters. -/
def count₂ (g : Gen) : Nat := (pushParams g 0).2.1
/-- No counterpart in /repo: see `count₂`. -/
def count₃ (g : Gen) : Nat := (pushParams g (count₂ g)).2.1

/-- No counterpart in /repo: the loops and the call between them. -/
def loopsOps (g : Gen) : List Op :=
  (.movD8Imm ebp 0 (i8 vPrev) :: loopOps g 0) ++ (origOps g (count₂ g)
    ++ (.movD8Imm ebp 0 (i8 vPrev) :: loopOps g (count₃ g)))

/-- No counterpart in /repo: the code behind the loops, without the epilogue. -/
def lastOps (g : Gen) : List Op :=
  prepareReturn g ++ (endContextOps g
    ++ ((lower (alignBytes 0 4) ++ (dropParams g.base g.params ++ raiseBack (alignBytes 0 4)))
    ++ (Jit32.doReturn g ++ destroyRetOps g)))

/-- No counterpart in /repo: the prologue without the first assignment. -/
def enterOps (g : Gen) : List Op :=
  [.push ebp, .push ebx, .movRegRm ebp esp 3, .subImm32 esp (i32 (frame g).size) 3,
   .andImm32 esp 3 (i32 (-16))]

/-- No counterpart in /repo: the code. -/
def hookOps (g : Gen) : List Op :=
  enterOps g ++ ((firstOps g ++ (loopsOps g ++ lastOps g)) ++ epilogue g)

theorem generateHookFunc_eq (g : Gen) : generateHookFunc g = some ((hookOps g).flatMap Op.bytes) := by
  have := ((out_writes (prologue g ++ vaStart g ++ vaFormat g ++ constructOps g ++ setupOps g)).andThen
    ((callHooks_writes g 0).andThen ((callOrig_writes g (count₂ g)).andThen
      ((callHooks_writes g (count₃ g)).andThen (out_writes (finish g)))))) []
  rw [List.nil_append] at this
  unfold generateHookFunc
  refine Eq.trans ?_ (this.trans ?_)
  · rfl
  refine congrArg some (congrArg (List.flatMap Op.bytes) ?_)
  unfold hookOps firstOps loopsOps lastOps finish prologue enterOps
  simp only [List.append_assoc, List.cons_append, List.nil_append]

end Verif.Jit32
