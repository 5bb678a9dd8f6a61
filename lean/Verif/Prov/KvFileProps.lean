import Verif.Prov.KvFile
/-
C92: what the reader for the oldest engine makes of a .vdf file, and that ProcessVDF gives everything back.
-/
namespace Verif.KvFile

open Verif.C (Byte Buf)
open Verif.Util (format)

variable {G : Engine} {name : List Byte}

/-! ## The text -/

/-- Specification: the part of a text in front of the first NUL. -/
def upToNul (s : List Byte) : List Byte := s.takeWhile (· ≠ 0)

theorem textOf_some (s : List Byte) (rest : List (Option Byte)) (h : 0 ∈ s) : textOf (s.map some ++ rest) = .ok (upToNul s) := by
  induction s with
  | nil => cases h
  | cons c cs ih =>
    unfold upToNul
    rw [List.takeWhile_cons]
    show (if c = 0 then _ else _) = _
    by_cases hc : c = 0
    · simp [hc]
    · have h' : 0 ∈ cs := (List.mem_cons.1 h).resolve_left fun e => hc e.symm
      rw [if_neg hc]
      show (do .ok (c :: (← textOf (cs.map some ++ rest)))) = _
      rw [ih h']
      simp [hc, bind, Except.bind, upToNul]

theorem textOf_none {s : List Byte} (rest : List (Option Byte)) (h : 0 ∉ s) : textOf (s.map some ++ none :: rest) = .error .indeterminate := by
  induction s with
  | nil => rfl
  | cons c cs ih =>
    have hc : c ≠ 0 := fun e => h (by rw [e]; exact List.mem_cons_self)
    show (if c = 0 then _ else _) = _
    rw [if_neg hc]
    show (do .ok (c :: (← textOf (cs.map some ++ none :: rest)))) = _
    rw [ih fun hm => h (List.mem_cons_of_mem _ hm)]
    rfl

theorem upToNul_snoc (s : List Byte) : upToNul (s ++ [0]) = upToNul s := by
  unfold upToNul
  induction s with
  | nil => rfl
  | cons c cs ih => rw [List.cons_append, List.takeWhile_cons, List.takeWhile_cons, ih]

theorem upToNul_mem (s t : List Byte) (h : 0 ∈ s) : upToNul (s ++ t) = upToNul s := by
  unfold upToNul
  induction s with
  | nil => cases h
  | cons c cs ih =>
    rw [List.cons_append, List.takeWhile_cons, List.takeWhile_cons]
    by_cases hc : c = 0
    · simp [hc]
    · rw [ih ((List.mem_cons.1 h).resolve_left fun e => hc e.symm)]

/-! ## KVLoadFromFile -/

/-- Specification: a file system that keeps its word: `Size` is the length of the file, less than 2³¹ - 1, and `Read` delivers all of it. -/
structure Honest (G : Engine) (name content : List Byte) : Prop where
  size : G.size name = some (content.length : Int)
  small : content.length + 1 < 2 ^ 31
  read : G.read name content.length = content
  scratch : G.scratch (content.length + 1) = true

/-- **C92.** The file is opened, read into a buffer one byte longer, closed, parsed up to its first NUL (all of it if it has none), and the
buffer is given back; what is found is what the parser finds. -/
theorem kv_whole_partial {content : List Byte} (h : Honest G name content) :
    kvLoad G name = .ok (G.parse (upToNul content),
      [.opened name, .alloc (content.length + 1), .read content.length, .closed, .parsed (upToNul content), .freed]) := by
  have hs := h.small
  have e1 : ¬ ((content.length : Int) + 1 ≥ 2 ^ 31) := by omega
  have e2 : ¬ ((content.length : Int) < 0) := by omega
  have e3 : ((content.length : Int) + 1).toNat = content.length + 1 := by omega
  unfold kvLoad
  rw [h.size]
  dsimp only
  rw [if_neg e1, if_neg e2, e3, h.scratch, if_neg (by decide)]
  simp only [Int.toNat_natCast, h.read, Nat.sub_self, List.replicate_zero, List.append_nil]
  have : content.map some ++ [some 0] = (content ++ [0]).map some ++ [] := by simp
  rw [this, textOf_some _ _ (by simp), upToNul_snoc]
  rfl

example : ∃ G : Engine, Honest G [97] [34, 102, 0, 120] ∧
    kvLoad G [97] = .ok (some (some [34, 102], none), [.opened [97], .alloc 5, .read 4, .closed, .parsed [34, 102], .freed]) :=
  ⟨⟨fun _ => some 4, fun _ _ => [34, 102, 0, 120], fun _ => true, fun t => some (some t, none), fun _ => none⟩, ⟨rfl, by decide, rfl, rfl⟩, rfl⟩

/-- **C92.** A file that does not open: false, and nothing else is done. -/
theorem kv_missing (h : G.size name = none) : kvLoad G name = .ok (none, [.opened name]) := by
  unfold kvLoad
  rw [h]

example : ∃ G : Engine, G.size [97] = none := ⟨⟨fun _ => none, fun _ _ => [], fun _ => true, fun _ => none, fun _ => none⟩, rfl⟩

/-- **C92.** When all is well, exactly: the file does not open, or its size is not negative and less than 2³¹ - 1, there is scratch memory, and
`Read` delivers either all bytes or a NUL. -/
theorem kv_ok_iff (hr : ∀ n, (G.read name n).length ≤ n) :
    (∃ r, kvLoad G name = .ok r) ↔ G.size name = none ∨ ∃ n : Nat, G.size name = some (n : Int) ∧ n + 1 < 2 ^ 31 ∧ G.scratch (n + 1) = true ∧
      ((G.read name n).length = n ∨ 0 ∈ G.read name n) := by
  unfold kvLoad
  cases hs : G.size name with
  | none => exact ⟨fun _ => .inl rfl, fun _ => ⟨_, rfl⟩⟩
  | some n =>
    simp only [reduceCtorEq, false_or, Option.some.injEq]
    split
    · rename_i h
      constructor
      · rintro ⟨r, e⟩; cases e
      · rintro ⟨k, rfl, h1, -⟩; omega
    rename_i hbig
    split
    · rename_i h
      constructor
      · rintro ⟨r, e⟩; cases e
      · rintro ⟨k, rfl, h1, -⟩; omega
    rename_i hneg
    obtain ⟨k, rfl⟩ := Int.eq_ofNat_of_zero_le (by omega : 0 ≤ n)
    have e3 : ((k : Int) + 1).toNat = k + 1 := by omega
    rw [e3, Int.toNat_natCast]
    split
    · rename_i h
      constructor
      · rintro ⟨r, e⟩; cases e
      · rintro ⟨j, e, -, h2, -⟩
        have : k = j := by omega
        subst this
        rw [h] at h2; cases h2
    rename_i hsc
    have hsc : G.scratch (k + 1) = true := by
      cases hx : G.scratch (k + 1) with
      | true => rfl
      | false => exact absurd hx hsc
    constructor
    · rintro ⟨r, e⟩
      refine ⟨k, rfl, by omega, hsc, ?_⟩
      apply Decidable.byContradiction
      intro hno
      obtain ⟨h1, h2⟩ := not_or.1 hno
      have hlt : (G.read name k).length < k := Nat.lt_of_le_of_ne (hr k) h1
      obtain ⟨d, hd⟩ : ∃ d, k - (G.read name k).length = d + 1 := ⟨k - (G.read name k).length - 1, by omega⟩
      simp only [hd, List.replicate_succ, List.append_assoc, List.cons_append] at e
      rw [textOf_none _ h2] at e
      cases e
    · rintro ⟨j, e, -, -, hj⟩
      have : k = j := by omega
      subst this
      rcases hj with hj | hj
      · have e4 : (G.read name k).map some ++ List.replicate (k - (G.read name k).length) none ++ [some 0] = (G.read name k ++ [0]).map some ++ [] := by
          simp [hj]
        simp only [e4]
        rw [textOf_some _ _ (by simp)]
        exact ⟨_, rfl⟩
      · simp only [List.append_assoc]
        rw [textOf_some _ _ hj]
        exact ⟨_, rfl⟩

example : ∃ G : Engine, (∀ n, (G.read [97] n).length ≤ n) ∧ (∃ r, kvLoad G [97] = .ok r) :=
  ⟨⟨fun _ => some 1, fun _ n => List.replicate n 65, fun _ => true, fun _ => none, fun _ => none⟩, fun n => by simp, ⟨_, rfl⟩⟩

/-- **Finding (C92).** The number of bytes read is not looked at: when `Read` delivers less than `Size` said (a file cut off in between, an
error of the disk), the parser is given bytes of the scratch memory that nobody wrote. -/
theorem kv_short_read {n : Nat} (h1 : G.size name = some (n : Int)) (h2 : n + 1 < 2 ^ 31) (h3 : G.scratch (n + 1) = true)
    (h4 : (G.read name n).length < n) (h5 : 0 ∉ G.read name n) : kvLoad G name = .error .indeterminate := by
  have e1 : ¬ ((n : Int) + 1 ≥ 2 ^ 31) := by omega
  have e2 : ¬ ((n : Int) < 0) := by omega
  have e3 : ((n : Int) + 1).toNat = n + 1 := by omega
  unfold kvLoad
  rw [h1]
  dsimp only
  rw [if_neg e1, if_neg e2, e3, h3, if_neg (by decide), Int.toNat_natCast]
  obtain ⟨d, hd⟩ : ∃ d, n - (G.read name n).length = d + 1 := ⟨n - (G.read name n).length - 1, by omega⟩
  simp only [hd, List.replicate_succ, List.append_assoc, List.cons_append]
  rw [textOf_none _ h5]
  rfl

example : ∃ G : Engine, kvLoad G [97] = .error .indeterminate :=
  ⟨_, kv_short_read (G := ⟨fun _ => some 2, fun _ _ => [65], fun _ => true, fun _ => none, fun _ => none⟩) (n := 2) rfl (by decide) rfl (by decide) (by decide)⟩

/-- **Finding (C92).** A negative `Size` (the answer -1 for a file that cannot be measured, or a file of 2 GB and more) is not looked at either: the NUL is
written in front of the buffer. -/
theorem kv_negative_size {n : Int} (h1 : G.size name = some n) (h2 : n < 0) : kvLoad G name = .error .outOfBounds := by
  have e1 : ¬ (n + 1 ≥ 2 ^ 31) := by omega
  unfold kvLoad
  rw [h1]
  dsimp only
  rw [if_neg e1, if_pos h2]

example : ∃ G : Engine, G.size [97] = some (-1) ∧ kvLoad G [97] = .error .outOfBounds :=
  ⟨⟨fun _ => some (-1), fun _ _ => [], fun _ => true, fun _ => none, fun _ => none⟩, rfl, kv_negative_size rfl (by decide)⟩

/-! ## ProcessVDF -/

/-- **C92.** Without a file system nothing is read and nothing is made. -/
theorem vdf_no_fs (original : Bool) (path alias : Buf) (pathLen aliasLen : Nat) : processVDF G false original name path pathLen alias aliasLen = .ok (none, []) := rfl

example : processVDF ⟨fun _ => some 2, fun _ _ => [65], fun _ => true, fun _ => none, fun _ => none⟩ false true [97] [1, 2] 2 [3] 1 = .ok (none, []) := vdf_no_fs ..

/-- Specification: how often something was done. -/
def times (e : Ev → Bool) (evs : List Ev) : Nat := (evs.filter e).length

/-- Specification: what was made or opened has been given back, at most one of each. -/
structure Balanced (evs : List Ev) : Prop where
  kv : times (· == .newKv) evs = times (· == .deleteKv) evs
  kvOne : times (· == .newKv) evs ≤ 1
  last : evs ≠ [] → evs.getLast? = some .deleteKv
  buf : times (fun e => match e with | .alloc _ => true | _ => false) evs = times (· == .freed) evs
  bufOne : times (fun e => match e with | .alloc _ => true | _ => false) evs ≤ 1
  file : times (· == .closed) evs = times (· == .freed) evs

theorem kvLoad_evs {r : Option Found × List Ev} (h : kvLoad G name = .ok r) :
    (r.2 = [.opened name] ∧ r.1 = none ∧ G.size name = none) ∨
    ∃ n text, G.size name = some n ∧ r.1 = G.parse text ∧ r.2 = [.opened name, .alloc (n + 1), .read n, .closed, .parsed text, .freed] := by
  unfold kvLoad at h
  cases hs : G.size name with
  | none => rw [hs] at h; cases h; exact .inl ⟨rfl, rfl, rfl⟩
  | some n =>
    rw [hs] at h
    right
    have h : (if _ then _ else _) = _ := h
    split at h
    · cases h
    split at h
    · cases h
    split at h
    · cases h
    simp only [bind, Except.bind] at h
    split at h
    · cases h
    · rename_i t e
      cases h
      exact ⟨n, t, rfl, rfl, rfl⟩

theorem finish_evs {path alias : Buf} {pathLen aliasLen : Nat} {es evs : List Ev} {found : Option Found} {r : Option (Buf × Buf)}
    (h : (finish path pathLen alias aliasLen es found).mapError Sum.inr = (.ok (r, evs) : Except (Bad ⊕ Verif.C.Fault) _)) : evs = [.newKv] ++ es ++ [.deleteKv] := by
  match found with
  | none => cases h; rfl
  | some (none, _) => cases h; rfl
  | some (some f, al) =>
    unfold finish at h
    dsimp only at h
    cases h1 : format path pathLen (some f) [] with
    | error e => rw [h1] at h; cases h
    | ok x =>
      cases h2 : format alias aliasLen (some (al.getD [])) [] with
      | error e => rw [h1, h2] at h; cases h
      | ok y => rw [h1, h2] at h; cases h; rfl

/-- **C92.** On every way through ProcessVDF that returns, the key/value object is deleted exactly once and last, an opened file is closed and
the scratch memory is freed. -/
theorem vdf_balanced {original baseFs : Bool} {path alias : Buf} {pathLen aliasLen : Nat} {r : Option (Buf × Buf)} {evs : List Ev}
    (h : processVDF G baseFs original name path pathLen alias aliasLen = .ok (r, evs)) : Balanced evs := by
  cases baseFs with
  | false => cases h; exact ⟨rfl, by decide, fun e => absurd rfl e, rfl, by decide, rfl⟩
  | true =>
    unfold processVDF at h
    rw [if_neg (by decide)] at h
    cases hf : readKv G original name with
    | error e => rw [hf] at h; cases h
    | ok x =>
      rw [hf] at h
      have hev : evs = [.newKv] ++ x.2 ++ [.deleteKv] := finish_evs (path := path) (alias := alias) (pathLen := pathLen) (aliasLen := aliasLen) h
      subst hev
      unfold readKv at hf
      cases original with
      | false =>
        cases hf
        exact ⟨rfl, by simp [times], fun _ => rfl, rfl, by simp [times], rfl⟩
      | true =>
        obtain ⟨a, es⟩ := x
        rcases kvLoad_evs (r := (a, es)) hf with ⟨h1, -, -⟩ | ⟨n, t, -, -, h1⟩
        · have h1 : es = _ := h1
          subst h1
          exact ⟨rfl, by simp [times], fun _ => rfl, rfl, by simp [times], rfl⟩
        · have h1 : es = _ := h1
          subst h1
          exact ⟨rfl, by simp [times], fun _ => rfl, rfl, by simp [times], rfl⟩

example : ∃ G : Engine, ∃ r evs, processVDF G true true [97] [9, 9] 2 [7] 1 = .ok (r, evs) ∧ r.isSome = true ∧ evs.length = 8 :=
  ⟨⟨fun _ => some 1, fun _ _ => [65], fun _ => true, fun t => some (some t, none), fun _ => none⟩, _, _, rfl, rfl, rfl⟩

/-- **C92.** What the rest of the loading is told (Verif/Core/Vdf.lean `providerVdf`) is what the reader of this engine finds in the file: for the oldest engine
what the parser finds in the text of the file, else what the engine's own reader finds. -/
theorem vdf_provides {content : List Byte} (original : Bool) (h : original = true → Honest G name content) (file alias : Buf) :
    (processVDF G true original name file 255 alias 32).map (·.1)
      = (Verif.PFile.providerVdf (fun _ => if original then G.parse (upToNul content) else G.load name) name file alias).mapError Sum.inr := by
  have key : ∀ found evs, readKv G original name = .ok (found, evs) →
      (processVDF G true original name file 255 alias 32).map (·.1) = (Verif.PFile.providerVdf (fun _ => found) name file alias).mapError Sum.inr := by
    intro found evs hf
    unfold processVDF
    rw [if_neg (by decide), hf]
    match found with
    | none => rfl
    | some (none, _) => rfl
    | some (some f, al) =>
      show Except.map _ (Except.mapError _ (finish file 255 alias 32 evs (some (some f, al)))) = _
      unfold finish Verif.PFile.providerVdf
      dsimp only
      cases h1 : format file 255 (some f) [] with
      | error e => rfl
      | ok r =>
        cases h2 : format alias 32 (some (al.getD [])) [] with
        | error e => rfl
        | ok q => rfl
  cases original with
  | false => exact key _ [.engineRead name] rfl
  | true => exact key _ _ (kv_whole_partial (h rfl))

example : ∃ G : Engine, Honest G [97] [65, 66] :=
  ⟨⟨fun _ => some 2, fun _ _ => [65, 66], fun _ => true, fun t => some (some t, none), fun _ => none⟩, rfl, by decide, rfl, rfl⟩

#print axioms kv_whole_partial
#print axioms kv_missing
#print axioms kv_ok_iff
#print axioms kv_short_read
#print axioms kv_negative_size
#print axioms vdf_no_fs
#print axioms vdf_balanced
#print axioms vdf_provides

end Verif.KvFile
