import Verif.Prov.KvFileProps
import Verif.Util.MiscProps
/-
C92 for the second engine: `Source2Provider::ProcessVDF`, written out separately and compared with that of the first.
-/
namespace Verif.KvFile
open Verif.C
open Verif.Util (format)

/-- `Source2Provider::ProcessVDF`, core/provider/source2/provider_source2.cpp:168-208: the engine's own reader always; `delete` on every
way out behind the `new`. -/
def processVDF2 (G : Engine) (baseFs : Bool) (name : List Byte) (path : Buf) (pathLen : Nat) (alias : Buf) (aliasLen : Nat) :
    R (Option (Buf × Buf) × List Ev) :=
  if baseFs = false then .ok (none, [])
  else
    match G.load name with
    | none => .ok (none, [.newKv, .engineRead name, .deleteKv])
    | some (file, al) =>
      match file with
      | none => .ok (none, [.newKv, .engineRead name, .deleteKv])
      | some f => do
        let (path, _) ← format path pathLen (some f) []
        let (alias, _) ← match al with
          | some t => format alias aliasLen (some t) []
          | none => format alias aliasLen (some []) []
        .ok (some (path, alias), [.newKv, .engineRead name, .deleteKv])

variable {G : Engine} {name : List Byte}

/-- **C92.** The provider for the second engine does with every file what the one for the first does on all engines but the oldest. -/
theorem vdf2_same (baseFs : Bool) (path alias : Buf) (pathLen aliasLen : Nat) :
    (processVDF2 G baseFs name path pathLen alias aliasLen).mapError Sum.inr
      = processVDF G baseFs false name path pathLen alias aliasLen := by
  unfold processVDF2 processVDF
  cases baseFs with
  | false => rfl
  | true =>
    simp only [Bool.true_eq_false, if_false, readKv, Except.mapError, bind, Except.bind, Bool.false_eq_true]
    cases hl : G.load name with
    | none => rfl
    | some r =>
      obtain ⟨file, al⟩ := r
      cases file with
      | none => rfl
      | some f =>
        unfold finish
        simp only [bind, Except.bind]
        cases h1 : format path pathLen (some f) [] with
        | error e => rfl
        | ok x =>
          cases al with
          | none =>
            simp only [Option.getD_none]
            cases h2 : format alias aliasLen (some []) [] <;> rfl
          | some t =>
            simp only [Option.getD_some]
            cases h2 : format alias aliasLen (some t) [] <;> rfl

/-- **C92.** On every way through it that returns, the key/value object is deleted exactly once and last. -/
theorem vdf2_balanced {baseFs : Bool} {path alias : Buf} {pathLen aliasLen : Nat} {r : Option (Buf × Buf)} {evs : List Ev}
    (h : processVDF2 G baseFs name path pathLen alias aliasLen = .ok (r, evs)) : Balanced evs := by
  have e := vdf2_same (G := G) (name := name) baseFs path alias pathLen aliasLen
  rw [h] at e
  exact vdf_balanced e.symm

/-- **C92.** True is returned exactly if there is a file system, the engine reads the file and it names a "file"; with buffers as long
as they are said to be, they then hold as much of the two texts as fits, an absent alias being empty. -/
theorem vdf2_outcome {path alias : Buf} {pathLen aliasLen : Nat} (hp : 1 ≤ pathLen) (hpb : pathLen ≤ path.length) (ha : 1 ≤ aliasLen)
    (hab : aliasLen ≤ alias.length) (baseFs : Bool) :
    ∃ r evs, processVDF2 G baseFs name path pathLen alias aliasLen = .ok (r, evs) ∧
      (r.isSome = true ↔ baseFs = true ∧ ∃ f al, G.load name = some (some f, al)) ∧
      ∀ f al, baseFs = true → G.load name = some (some f, al) →
        r = some (f.take (pathLen - 1) ++ 0 :: path.drop (min f.length (pathLen - 1) + 1),
          (al.getD []).take (aliasLen - 1) ++ 0 :: alias.drop (min (al.getD []).length (aliasLen - 1) + 1)) := by
  unfold processVDF2
  cases baseFs with
  | false => exact ⟨none, [], rfl, by simp, by simp⟩
  | true =>
    rw [if_neg (by decide)]
    cases hl : G.load name with
    | none => exact ⟨none, _, rfl, by simp, by simp⟩
    | some x =>
      obtain ⟨file, al⟩ := x
      cases file with
      | none => exact ⟨none, _, rfl, by simp, by simp⟩
      | some f =>
        obtain ⟨b1, e1, h1⟩ := Verif.Util.format_spec hp hpb f []
        cases al with
        | none =>
          obtain ⟨b2, e2, h2⟩ := Verif.Util.format_spec ha hab [] []
          refine ⟨some (b1, b2), [.newKv, .engineRead name, .deleteKv], ?_, ?_, ?_⟩
          · simp only [bind, Except.bind, e1, e2]
          · simp
          · intro f' al' _ hh
            simp only [Option.some.injEq, Prod.mk.injEq] at hh
            obtain ⟨rfl, rfl⟩ := hh
            rw [h1, h2]
            rfl
        | some t =>
          obtain ⟨b2, e2, h2⟩ := Verif.Util.format_spec ha hab t []
          refine ⟨some (b1, b2), [.newKv, .engineRead name, .deleteKv], ?_, ?_, ?_⟩
          · simp only [bind, Except.bind, e1, e2]
          · simp
          · intro f' al' _ hh
            simp only [Option.some.injEq, Prod.mk.injEq] at hh
            obtain ⟨rfl, rfl⟩ := hh
            rw [h1, h2]
            rfl

/-- No counterpart in /repo: an engine that finds a file and no alias. -/
def exampleEngine : Engine := ⟨fun _ => none, fun _ _ => [], fun _ => true, fun _ => none, fun _ => some (some [97, 98, 99], none)⟩

example : processVDF2 exampleEngine true [120] [1, 2, 3, 4] 3 [7, 8] 2
    = .ok (some ([97, 98, 0, 4], [0, 8]), [.newKv, .engineRead [120], .deleteKv]) := rfl

#print axioms vdf2_same
#print axioms vdf2_balanced
#print axioms vdf2_outcome

end Verif.KvFile
