import Verif.Lemmas.Memo
/-!
# C63, C64: the caching decorators
-/
set_option linter.unusedSectionVars false
namespace Sureal.Props
open Memo

section memoized
variable {A V : Type}

/-- C63 (transparent, part): after any history of calls, a call with a hashable argument does what the function itself would
do, provided the function does not distinguish arguments that Python considers equal.  The full statement has neither
condition; both are needed, see `C63_refuted_equal` and `C63_refuted_unhashable`. -/
theorem C63_transparent_partial (keys : Keys A) (f : A → Py V) (hf : ∀ a b, keys.eq a b = true → f a = f b)
    (hist : List A) (a : A) (ha : keys.hashable a = true) : (call keys f (after keys f hist) a).1 = f a := by
  unfold call
  rw [if_pos ha]
  cases hfind : find keys a (after keys f hist).cache with
  | some v =>
    obtain ⟨b, hb, hba⟩ := find_some hfind
    show Except.ok v = f a
    rw [← hf b a hba, right_after hist b v hb]
  | none =>
    cases hfa : f a with
    | ok v => simp
    | error e => simp

/-- C63 (once): after any history, the function was evaluated at most once on the arguments equal to a given one, if it has
a value there. -/
theorem C63_once (keys : Keys A) (f : A → Py V) (hsymm : ∀ a b, keys.eq a b = true → keys.eq b a = true)
    (htrans : ∀ a b c, keys.eq a b = true → keys.eq b c = true → keys.eq a c = true)
    (hf : ∀ a b, keys.eq a b = true → f a = f b) (hist : List A) (a : A) (v : V) (ha : f a = .ok v) :
    ((after keys f hist).evals.filter (fun b => keys.eq b a)).length ≤ 1 :=
  (minv_after hsymm htrans hf hist).once a v ha

/-- C63 (exceptions): an exception is not remembered; the function is evaluated at every call that raises it. -/
theorem C63_exceptions (keys : Keys A) (f : A → Py V) (hf : ∀ a b, keys.eq a b = true → f a = f b) (hist : List A) (a : A)
    (e : PyErr) (ha : keys.hashable a = true) (he : f a = .error e) :
    (after keys f (hist ++ [a])).evals = a :: (after keys f hist).evals := by
  unfold after
  rw [List.foldl_append]
  show (call keys f (after keys f hist) a).2.evals = a :: (after keys f hist).evals
  unfold call
  rw [if_pos ha]
  cases hfind : find keys a (after keys f hist).cache with
  | some v =>
    obtain ⟨b, hb, hba⟩ := find_some hfind
    have := right_after hist b v hb
    rw [hf b a hba, he] at this; cases this
  | none => simp [he]

/-- the hypotheses hold of plain equality and any function; here the history evaluates twice, not five times -/
example : (after (⟨fun _ => true, fun a b => a == b⟩ : Keys Nat) (fun a => .ok (a * a) : Nat → Py Nat) [3, 4, 3, 3, 4]).evals
    = [4, 3] := by decide

/-- Python values that are equal but not the same -/
inductive Num where
  | int1 | true
  deriving DecidableEq

/-- C63 is false of functions that distinguish `1` and `True`: the value remembered for one is returned for the other. -/
theorem C63_refuted_equal : ∃ (keys : Keys Num) (f : Num → Py String) (hist : List Num) (a : Num),
    (∀ a, keys.hashable a = true) ∧ (∀ a b, keys.eq a b = true) ∧ (call keys f (after keys f hist) a).1 ≠ f a :=
  ⟨⟨fun _ => Bool.true, fun _ _ => Bool.true⟩, fun | .int1 => .ok "1" | .true => .ok "True", [.int1], .true,
    fun _ => rfl, fun _ _ => rfl, by intro h; injection h with h; revert h; decide⟩

/-- C63 is false of every function on every argument that is not hashable and on which the function does not itself raise
TypeError. -/
theorem C63_refuted_unhashable (keys : Keys A) (f : A → Py V) (hist : List A) (a : A) (ha : keys.hashable a = false)
    (hf : f a ≠ .error .type) : (call keys f (after keys f hist) a).1 ≠ f a := by
  unfold call
  rw [ha]
  exact fun h => hf h.symm

end memoized

section persist
variable {A V P H B : Type} [DecidableEq P] [DecidableEq H] {env : Env A V H B}

/-- C64 (no crash, one process, part): if no process is ever killed and only one uses the directory, then every call
returns (or raises) what the function does, provided that equal keys mean equal values and that what is written can be read
back.  Missing from the full statement: crashes, which refute it (`C64_refuted`). -/
theorem C64_sequential_partial [Subsingleton P] (hkey : ∀ a b, env.key a = env.key b → env.f a = env.f b)
    (hjson : ∀ a v, env.f a = .ok v → (env.dump v).2 = true ∧ env.load (env.dump v).1 = some v)
    {s : DSt P H A V B} (h : DReachable env False s) {p : P} {a : A} {r : Py V} (hr : s.pc p = .returned a r) :
    r = env.f a := by
  have := (dinv_reachable hkey hjson (fun h => h.elim) h).pcs p
  rw [hr] at this
  exact this.resolve_right (fun h => h.1)

/-- C64 (crashes, one process, part): if in addition no proper beginning of what is written can be read as a value, then
after any history of calls and crashes a call either does what the function does, or raises a JSON error. -/
theorem C64_crash_partial [Subsingleton P] (hkey : ∀ a b, env.key a = env.key b → env.f a = env.f b)
    (hjson : ∀ a v, env.f a = .ok v → (env.dump v).2 = true ∧ env.load (env.dump v).1 = some v)
    (hpre : ∀ a v c, env.f a = .ok v → c <+: (env.dump v).1 → c ≠ (env.dump v).1 → env.load c = none)
    {s : DSt P H A V B} (h : DReachable env True s) {p : P} {a : A} {r : Py V} (hr : s.pc p = .returned a r) :
    r = env.f a ∨ r = .error .json := by
  have := (dinv_reachable hkey hjson (fun _ => hpre) h).pcs p
  rw [hr] at this
  exact this.imp id (fun h => h.2)

/-- the run of one process up to the moment at which the file for `a` has been opened and is empty -/
theorem run_to_open (crashes : Prop) (a : A) (v : V) (hv : env.f a = .ok v) : ∃ s : DSt Unit H A V B,
    DReachable env crashes s ∧ s.dir = true ∧ s.files = (fun k => if k = env.key a then some [] else none) ∧
      s.pc () = .write a v 0 (env.dump v).1 := by
  refine ⟨_, (((((Relation.ReflTransGen.refl.tail (.call (p := ()) a ?_)).tail (.miss (p := ()) (a := a) ?_ ?_)).tail
    (.dirMissing (p := ()) (a := a) ?_ ?_)).tail (.mkdir (p := ()) (a := a) ?_ ?_)).tail
    (.value (p := ()) (a := a) (v := v) ?_ hv)).tail (.openFile (p := ()) (a := a) (v := v) ?_), ?_, ?_, ?_⟩ <;> rfl

/-- C64 is false: for every function with a value somewhere there is a history with one crash after which a call of the
same function raises a JSON error (an empty file is not JSON). -/
theorem C64_refuted (env : Env A V H B) (a : A) (v : V) (hv : env.f a = .ok v) (hempty : env.load [] = none) :
    ∃ s : DSt Unit H A V B, DReachable env True s ∧ s.pc () = .returned a (.error .json) := by
  obtain ⟨s, h1, h2, h3, h4⟩ := run_to_open (H := H) (B := B) (env := env) True a v hv
  have hf : s.files (env.key a) = some [] := by rw [h3]; simp
  refine ⟨_, ((((h1.tail (.crash (p := ()) trivial)).tail (.call (p := ()) a rfl)).tail
    (.hit (p := ()) (a := a) (c := []) rfl hf)).tail (.load (p := ()) (a := a) (c := []) rfl hf)), ?_⟩
  rw [setPc_same, hempty]

/-- C64 (no recovery): once the file of an argument cannot be read and nobody is writing, every later call with that argument
raises a JSON error, whatever calls and crashes happen. -/
theorem C64_no_recovery [Subsingleton P] {crashes : Prop} {s t : DSt P H A V B} {a : A} {c : List B}
    (hidle : ∀ p, s.pc p = .idle) (hfile : s.files (env.key a) = some c) (hl : env.load c = none)
    (hst : Relation.ReflTransGen (DStep env crashes) s t) {p : P} {r : Py V} (hr : t.pc p = .returned a r) :
    r = .error .json := by
  have key : t.files (env.key a) = some c ∧ ∀ p, Away env (env.key a) (t.pc p) := by
    clear hr
    induction hst with
    | refl => exact ⟨hfile, fun p => by rw [hidle p]; trivial⟩
    | tail _ h2 ih => exact poisoned_step hl ih.1 ih.2 h2
  have := key.2 p
  rw [hr] at this
  exact this rfl

/-- C64 (not even crashes): without any crash, a second process that calls the function while the first one is writing gets a
JSON error. -/
theorem C64_race (env : Env A V H B) (a : A) (v : V) (hv : env.f a = .ok v) (hempty : env.load [] = none) :
    ∃ s : DSt Bool H A V B, DReachable env False s ∧ s.pc true = .returned a (.error .json) := by
  have hreach : ∃ s : DSt Bool H A V B, DReachable env False s ∧ s.files (env.key a) = some [] ∧ s.pc true = .idle := by
    refine ⟨_, (((((Relation.ReflTransGen.refl.tail (.call (p := false) a ?_)).tail (.miss (p := false) (a := a) ?_ ?_)).tail
      (.dirMissing (p := false) (a := a) ?_ ?_)).tail (.mkdir (p := false) (a := a) ?_ ?_)).tail
      (.value (p := false) (a := a) (v := v) ?_ hv)).tail (.openFile (p := false) (a := a) (v := v) ?_), ?_, ?_⟩ <;>
      first | rfl | simp [setPc, setFile, DSt.init]
  obtain ⟨s, h1, hf, h4⟩ := hreach
  refine ⟨_, (((h1.tail (.call (p := true) a h4)).tail (.hit (p := true) (a := a) (c := []) rfl hf)).tail
    (.load (p := true) (a := a) (c := []) rfl hf)), ?_⟩
  rw [setPc_same, hempty]

/-- C64 (first use): without any crash, two processes that both find the directory missing: one of them raises an OSError. -/
theorem C64_race_directory (env : Env A V H B) (a : A) :
    ∃ s : DSt Bool H A V B, DReachable env False s ∧ s.pc true = .returned a (.error .os) := by
  refine ⟨_, (((((((Relation.ReflTransGen.refl.tail (.call (p := false) a ?_)).tail (.miss (p := false) (a := a) ?_ ?_)).tail
    (.dirMissing (p := false) (a := a) ?_ ?_)).tail (.call (p := true) a ?_)).tail (.miss (p := true) (a := a) ?_ ?_)).tail
    (.dirMissing (p := true) (a := a) ?_ ?_)).tail (.mkdir (p := false) (a := a) ?_ ?_)).tail
    (.mkdirExists (p := true) (a := a) ?_ ?_), ?_⟩ <;> rfl

/-- numbers written in decimal, read back from any non-empty string of digits -/
def decimal : Env Unit Nat Unit (Fin 10) :=
  { f := fun _ => .ok 12, key := id, dump := fun _ => ([1, 2], true),
    load := fun l => if l = [] then none else some (l.foldl (fun n d => 10 * n + d) 0) }

/-- C64 fails with a wrong value, not only with an error, when a number is cut off: 12 is remembered as 1. -/
theorem C64_truncated_number : ∃ s : DSt Unit Unit Unit Nat (Fin 10), DReachable decimal True s ∧
    s.pc () = .returned () (.ok 1) ∧ decimal.f () = .ok 12 := by
  obtain ⟨s, h1, h2, h3, h4⟩ := run_to_open (H := Unit) (B := Fin 10) (env := decimal) True () 12 rfl
  have hf : s.files () = some [] := by rw [h3]; simp [decimal]
  refine ⟨_, (((((h1.tail (.write (p := ()) (c := [1]) (rest := [2]) h4 hf)).tail (.crash (p := ()) trivial)).tail
    (.call (p := ()) () rfl)).tail (.hit (p := ()) (a := ()) (c := [1]) rfl rfl)).tail
    (.load (p := ()) (a := ()) (c := [1]) rfl rfl)), ?_, rfl⟩
  rw [setPc_same]; rfl

/-- values in brackets: no proper beginning can be read, so `C64_crash_partial` applies -/
def bracketed : Env Nat Nat Nat (Option Nat) :=
  { f := fun a => if a = 0 then .error .zeroDivision else .ok (a * a), key := id, dump := fun v => ([some v, none], true),
    load := fun | [some v, none] => some v | _ => none }

example {s : DSt Unit Nat Nat Nat (Option Nat)} (h : DReachable bracketed True s) {a : Nat} {r : Py Nat}
    (hr : s.pc () = .returned a r) : r = bracketed.f a ∨ r = .error .json := by
  refine C64_crash_partial (fun a b h => by cases h; rfl) (fun a v _ => ⟨rfl, rfl⟩) ?_ h hr
  intro a v c _ hc hne
  have hc' : c <+: [some v, none] := hc
  have hne' : c ≠ [some v, none] := hne
  rcases c with _ | ⟨x, _ | ⟨y, _ | ⟨z, c⟩⟩⟩
  · rfl
  · cases x <;> rfl
  · rw [List.cons_prefix_cons, List.cons_prefix_cons] at hc'
    obtain ⟨rfl, rfl, _⟩ := hc'
    exact absurd rfl hne'
  · have := hc'.length_le; simp at this

/-- and `C64_sequential_partial`: a second call reads the file that the first one wrote -/
example : ∃ s t : DSt Unit Nat Nat Nat (Option Nat), DReachable bracketed False s ∧ s.pc () = .read 3 ∧
    DStep bracketed False s t ∧ t.pc () = .returned 3 (.ok 9) := by
  obtain ⟨s, h1, h2, h3, h4⟩ := run_to_open (H := Nat) (B := Option Nat) (env := bracketed) False 3 9 rfl
  have hf : s.files (bracketed.key 3) = some [] := by rw [h3]; simp [bracketed]
  refine ⟨_, _, (((((h1.tail (.write (p := ()) (c := [some 9, none]) (rest := []) h4 hf)).tail (.close (p := ()) rfl)).tail
    (.done (p := ()) rfl)).tail (.call (p := ()) 3 rfl)).tail (.hit (p := ()) (a := 3) (c := [some 9, none]) rfl rfl)), rfl,
    .load (p := ()) (a := 3) (c := [some 9, none]) rfl rfl, rfl⟩

end persist
end Sureal.Props
