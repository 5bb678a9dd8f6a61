import Verif.Page.GenBuf

/-!
C52: growth of the code buffer preserves the code.
-/
namespace Verif.Page

/-! ## Specification -/

/-- The code is a sequence of bytes: a push appends, a rewrite replaces bytes in place. -/
def specStep (l : List Nat) : GOp → List Nat
  | .push bs _ => l ++ bs
  | .rewrite a bs => l.take a ++ bs ++ l.drop (a + bs.length)
  | .clear => []

/-- What is asked of the callers and the allocator: allocations succeed, the code stays below 4 GiB, rewrites stay inside the written range. -/
def specOk (l : List Nat) : GOp → Prop
  | .push bs ok => ok = true ∧ l.length + bs.length < 2 ^ 32
  | .rewrite a bs => a + bs.length ≤ l.length
  | .clear => True

/-- The same for a sequence. -/
def SpecOk (l : List Nat) : List GOp → Prop
  | [] => True
  | o :: os => specOk l o ∧ SpecOk (specStep l o) os

/-- The buffer holds the code `l`. -/
structure GRep (b : GenBuf) (l : List Nat) : Prop where
  size : b.size = l.length
  code : b.code = l
  block : ∀ d, b.data = some d → d.length = b.allocated
  null : b.data = none → b.allocated = 0
  room : l.length ≤ b.allocated
  small : b.allocated < 2 ^ 32

theorem growSize_ge {n a : Nat} : n ≤ growSize n a := by
  unfold growSize
  dsimp only
  split <;> split at * <;> omega

theorem growSize_lt {n a : Nat} (h : n < 2 ^ 32) : growSize n a < 2 ^ 32 := by
  unfold growSize
  dsimp only
  have : a * 2 % 2 ^ 32 < 2 ^ 32 := Nat.mod_lt _ (by decide)
  split <;> split at * <;> omega

theorem GRep.init : GRep GenBuf.init [] := ⟨rfl, rfl, by simp [GenBuf.init], fun _ => rfl, Nat.zero_le _, by decide⟩

theorem push_rep {b : GenBuf} {l bs : List Nat} (h : GRep b l) (hs : l.length + bs.length < 2 ^ 32) : ∃ b', b.push bs true = some b' ∧ GRep b' (l ++ bs) := by
  have hsz := h.size
  have hcode := h.code
  have hroom := h.room
  unfold GenBuf.push
  dsimp only
  rw [Nat.mod_eq_of_lt (by omega)]
  by_cases hg : b.size + bs.length > b.allocated
  · rw [if_pos hg]
    simp only [if_true]
    have hge := growSize_ge (n := b.size + bs.length) (a := b.allocated)
    have hlt := growSize_lt (n := b.size + bs.length) (a := b.allocated) (by omega)
    generalize growSize (b.size + bs.length) b.allocated = A at hge hlt
    have hf : freshBlock b.data b.size A = some (l ++ List.replicate (A - l.length) 0xCC) := by
      unfold freshBlock
      cases hd : b.data with
      | none =>
        have h0 := h.null hd
        have : l = [] := by
          apply List.eq_nil_of_length_eq_zero
          omega
        subst this
        dsimp only
        rw [if_pos (by simpa using hsz)]
        simp
      | some d =>
        have hl := h.block d hd
        unfold GenBuf.code at hcode
        rw [hd] at hcode
        dsimp only at hcode ⊢
        rw [if_pos ⟨by omega, by omega⟩, hcode, hsz]
    rw [hf]
    dsimp only
    unfold blkWrite
    dsimp only
    rw [if_pos (by simp; omega)]
    refine ⟨_, rfl, ⟨by simp [hsz], ?_, ?_, by simp, ?_, hlt⟩⟩
    · unfold GenBuf.code
      dsimp only
      rw [hsz, List.take_left' rfl, List.append_assoc, ← List.append_assoc, List.take_left' (by simp)]
    · intro d e
      simp only [Option.some.injEq] at e
      subst e
      simp
      omega
    · simp; omega
  · rw [if_neg hg]
    cases hd : b.data with
    | none =>
      have h0 := h.null hd
      have hb : bs = [] := List.eq_nil_of_length_eq_zero (by omega)
      subst hb
      unfold blkWrite
      simp only [if_true]
      refine ⟨_, rfl, ?_⟩
      have : ({ b with data := none, size := b.size + ([] : List Nat).length } : GenBuf) = b := by cases b; simp_all
      rw [this]
      simpa using h
    | some d =>
      have hl := h.block d hd
      unfold GenBuf.code at hcode
      rw [hd] at hcode
      dsimp only at hcode
      unfold blkWrite
      dsimp only
      rw [if_pos (by omega)]
      refine ⟨_, rfl, ⟨by simp [hsz], ?_, ?_, by simp, ?_, h.small⟩⟩
      · unfold GenBuf.code
        dsimp only
        rw [hcode, List.take_left' (by simp [hsz])]
      · intro d' e
        simp only [Option.some.injEq] at e
        subst e
        simp
        omega
      · simp; omega

theorem rewrite_rep {b : GenBuf} {l bs : List Nat} {a : Nat} (h : GRep b l) (hs : a + bs.length ≤ l.length) :
    ∃ b', b.rewrite a bs = some b' ∧ GRep b' (l.take a ++ bs ++ l.drop (a + bs.length)) := by
  have hsz := h.size
  have hcode := h.code
  have hroom := h.room
  unfold GenBuf.rewrite
  cases hd : b.data with
  | none =>
    have h0 := h.null hd
    have hb : bs = [] := List.eq_nil_of_length_eq_zero (by omega)
    have hl : l = [] := List.eq_nil_of_length_eq_zero (by omega)
    subst hb hl
    unfold blkWrite
    simp only [if_true]
    refine ⟨_, rfl, ?_⟩
    have : ({ b with data := none } : GenBuf) = b := by cases b; simp_all
    rw [this]
    simpa using h
  | some d =>
    have hl := h.block d hd
    unfold GenBuf.code at hcode
    rw [hd] at hcode
    dsimp only at hcode
    unfold blkWrite
    dsimp only
    rw [if_pos (by omega)]
    have hlen : (l.take a ++ bs ++ l.drop (a + bs.length)).length = l.length := by simp; omega
    refine ⟨_, rfl, ⟨by rw [hlen]; exact hsz, ?_, ?_, by simp, by rw [hlen]; exact hroom, h.small⟩⟩
    · unfold GenBuf.code
      dsimp only
      rw [← hcode, hsz]
      rw [List.take_append, List.take_take, List.drop_take, List.take_append]
      have e1 : (List.take a d).length = a := by simp; omega
      rw [List.length_append, e1, List.take_of_length_le (l := List.take a d) (by omega), List.take_of_length_le (l := bs) (by omega)]
      rw [Nat.min_eq_left (by omega)]
    · intro d' e
      simp only [Option.some.injEq] at e
      subst e
      simp
      omega

theorem gstep_rep {b : GenBuf} {l : List Nat} {o : GOp} (h : GRep b l) (ho : specOk l o) : ∃ b', gstep b o = some b' ∧ GRep b' (specStep l o) := by
  cases o with
  | push bs ok =>
    obtain ⟨rfl, hs⟩ := ho
    exact push_rep h hs
  | rewrite a bs => exact rewrite_rep h ho
  | clear => exact ⟨_, rfl, GRep.init⟩

theorem grun_rep {b : GenBuf} {l : List Nat} {os : List GOp} (h : GRep b l) (ho : SpecOk l os) : ∃ b', grun b os = some b' ∧ GRep b' (os.foldl specStep l) := by
  induction os generalizing b l with
  | nil => exact ⟨b, rfl, h⟩
  | cons o os ih =>
    obtain ⟨b1, e1, h1⟩ := gstep_rep h ho.1
    obtain ⟨b2, e2, h2⟩ := ih h1 ho.2
    exact ⟨b2, by rw [grun, e1]; exact e2, h2⟩

/-! ## The claim -/

/-- C52: any sequence of pushes, rewrites and clears on a new buffer runs without leaving its block, and the code read from it at the end
is the sequence of bytes it should be.
The full claim is for all pushes; after an `Alloc` that fails it is false (`failed_push_overruns`, `failed_push_null`). -/
theorem genbuf_refines_partial {os : List GOp} (ho : SpecOk [] os) : ∃ b, grun GenBuf.init os = some b ∧ b.code = os.foldl specStep [] ∧ b.size = (os.foldl specStep []).length := by
  obtain ⟨b, e, h⟩ := grun_rep GRep.init ho
  exact ⟨b, e, h.code, h.size⟩

/-- C52: bytes already written stay, at their offsets, over any number of later pushes. -/
theorem pushes_keep {b : GenBuf} {l : List Nat} (h : GRep b l) {os : List GOp} (ho : SpecOk l os) (hp : ∀ o ∈ os, ∃ bs, o = .push bs true) {i : Nat} (hi : i < l.length) :
    ∃ b', grun b os = some b' ∧ b'.code[i]? = l[i]? := by
  obtain ⟨b', e, h'⟩ := grun_rep h ho
  refine ⟨b', e, ?_⟩
  rw [h'.code]
  clear e h' h b' b ho
  induction os generalizing l with
  | nil => rfl
  | cons o os ih =>
    obtain ⟨bs, rfl⟩ := hp o (by simp)
    simp only [List.foldl_cons, specStep]
    rw [ih (fun o' ho' => hp o' (List.mem_cons_of_mem _ ho')) (by simp; omega), List.getElem?_append_left hi]

/-- C52: a rewrite inside the written range changes exactly the bytes addressed. -/
theorem rewrite_exact {b : GenBuf} {l bs : List Nat} {a : Nat} (h : GRep b l) (hs : a + bs.length ≤ l.length) :
    ∃ b', b.rewrite a bs = some b' ∧ b'.size = b.size ∧ ∀ i, b'.code[i]? = if a ≤ i ∧ i < a + bs.length then bs[i - a]? else b.code[i]? := by
  obtain ⟨b', e, h'⟩ := rewrite_rep h hs
  refine ⟨b', e, ?_, ?_⟩
  · rw [h'.size, h.size]; simp; omega
  · intro i
    rw [h'.code, h.code, List.append_assoc, List.getElem?_append]
    have e1 : (List.take a l).length = a := by simp; omega
    rw [e1]
    by_cases h1 : i < a
    · rw [if_pos h1, if_neg (by omega), List.getElem?_take_of_lt h1]
    · rw [if_neg h1, List.getElem?_append]
      by_cases h2 : i - a < bs.length
      · rw [if_pos h2, if_pos (by omega)]
      · rw [if_neg h2, if_neg (by omega), List.getElem?_drop]
        congr 1
        omega

/-- Two growths and a rewrite. -/
example : SpecOk [] [.push (List.replicate 60 1) true, .push [2, 3, 4, 5, 6] true, .rewrite 59 [7, 8], .push (List.replicate 100 9) true] := by
  simp [SpecOk, specOk, specStep]

example : (grun GenBuf.init [.push (List.replicate 60 1) true, .push [2, 3, 4, 5, 6] true, .rewrite 59 [7, 8], .push (List.replicate 100 9) true]).map
    (fun b => (b.allocated, b.code)) = some (256, List.replicate 59 1 ++ [7, 8, 3, 4, 5, 6] ++ List.replicate 100 9) := by decide +kernel

example : ∃ b, GRep b [1, 2, 3] ∧ 1 + [9].length ≤ [1, 2, 3].length := by
  obtain ⟨b, _, h⟩ := push_rep GRep.init (bs := [1, 2, 3]) (by decide)
  exact ⟨b, h, by decide⟩

/-- A push whose allocation fails changes no byte and appends none. -/
theorem failed_push_keeps {b : GenBuf} {l bs : List Nat} (h : GRep b l) (hs : l.length + bs.length < 2 ^ 32) (hg : b.allocated < l.length + bs.length) :
    ∃ b', b.push bs false = some b' ∧ b'.code = l ∧ b'.size = b.size := by
  unfold GenBuf.push
  dsimp only
  rw [Nat.mod_eq_of_lt (by rw [h.size]; exact hs), if_pos (by rw [h.size]; exact hg)]
  exact ⟨_, rfl, h.code, rfl⟩

example : GRep GenBuf.init [] ∧ ([] : List Nat).length + [1].length < 2 ^ 32 ∧ GenBuf.init.allocated < ([] : List Nat).length + [1].length := ⟨GRep.init, by decide, by decide⟩

/-- But it raises the recorded size, so the next push writes past the end of the block. -/
theorem failed_push_overruns : ∃ b, grun GenBuf.init [.push (List.replicate 60 1) true, .push [2, 3, 4, 5, 6] false] = some b ∧ b.code = List.replicate 60 1 ∧
    b.push [2, 3, 4, 5, 6] true = none := by
  refine ⟨{ data := some (List.replicate 60 1 ++ List.replicate 4 0xCC), size := 60, allocated := 128 }, by decide +kernel, by decide +kernel, by decide +kernel⟩

/-- On a new buffer, the next push writes through NULL. -/
theorem failed_push_null : ∃ b, GenBuf.init.push [1] false = some b ∧ b.push [1] true = none := ⟨⟨none, 0, 64⟩, by decide, by decide⟩

/-- `end_count` after `start_count` is the number of bytes written between them. -/
theorem count_between {b : GenBuf} {l : List Nat} (h : GRep b l) {bs : List (List Nat)} (hs : (l ++ bs.flatten).length < 2 ^ 32) :
    ∃ b', grun b (bs.map fun x => .push x true) = some b' ∧ countBetween b.size b'.size = bs.flatten.length := by
  have ho : SpecOk l (bs.map fun x => .push x true) := by
    clear h
    induction bs generalizing l with
    | nil => trivial
    | cons x xs ih =>
      simp only [List.flatten_cons, List.length_append] at hs
      refine ⟨⟨rfl, by omega⟩, ih ?_⟩
      simp only [specStep, List.length_append]
      omega
  have hf : ∀ (bs : List (List Nat)) l, (bs.map fun x => GOp.push x true).foldl specStep l = l ++ bs.flatten := by
    intro bs
    induction bs with
    | nil => simp
    | cons x xs ih => intro l; simp [specStep, ih]
  obtain ⟨b', e, h'⟩ := grun_rep h ho
  refine ⟨b', e, ?_⟩
  unfold countBetween
  rw [h'.size, h.size, hf]
  simp only [List.length_append] at hs ⊢
  omega

example : (([] : List Nat) ++ [[1, 2], [3]].flatten).length < 2 ^ 32 := by decide

end Verif.Page

#print axioms Verif.Page.genbuf_refines_partial
#print axioms Verif.Page.pushes_keep
#print axioms Verif.Page.rewrite_exact
#print axioms Verif.Page.failed_push_keeps
#print axioms Verif.Page.failed_push_overruns
#print axioms Verif.Page.failed_push_null
#print axioms Verif.Page.count_between
