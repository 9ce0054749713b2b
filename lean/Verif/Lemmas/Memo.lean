import Verif.Model.Memo
import Mathlib.Data.List.Basic
import Mathlib.Tactic.Common
/-! Invariants of the caching decorators. -/
set_option linter.unusedSectionVars false
namespace Sureal.Memo
variable {A V : Type}

theorem find_some {keys : Keys A} {a : A} {v : V} {l : List (A × V)} (h : find keys a l = some v) :
    ∃ b, (b, v) ∈ l ∧ keys.eq b a = true := by
  induction l with
  | nil => cases h
  | cons x l ih =>
    obtain ⟨b, w⟩ := x
    unfold find at h
    split at h
    · rename_i hb; cases h; exact ⟨b, by simp, hb⟩
    · obtain ⟨b', h1, h2⟩ := ih h; exact ⟨b', by simp [h1], h2⟩

theorem find_none {keys : Keys A} {a : A} {l : List (A × V)} (h : find keys a l = none) :
    ∀ b v, (b, v) ∈ l → keys.eq b a = false := by
  induction l with
  | nil => intro b v hb; simp at hb
  | cons x l ih =>
    obtain ⟨c, w⟩ := x
    unfold find at h
    split at h
    · cases h
    · rename_i hc
      intro b v hb
      rcases List.mem_cons.mp hb with e | hb
      · cases e; simpa using hc
      · exact ih h b v hb

/-- what is in the cache is right, and every argument on which the function was evaluated successfully is in the cache -/
structure MInv (keys : Keys A) (f : A → Py V) (s : MSt A V) : Prop where
  right : ∀ b v, (b, v) ∈ s.cache → f b = .ok v
  evals : ∀ b v, b ∈ s.evals → f b = .ok v → (b, v) ∈ s.cache
  once : ∀ a v, f a = .ok v → (s.evals.filter (fun b => keys.eq b a)).length ≤ 1

theorem minv_call {keys : Keys A} {f : A → Py V} {s : MSt A V} (h : MInv keys f s)
    (hsymm : ∀ a b, keys.eq a b = true → keys.eq b a = true)
    (htrans : ∀ a b c, keys.eq a b = true → keys.eq b c = true → keys.eq a c = true)
    (hf : ∀ a b, keys.eq a b = true → f a = f b) (a : A) : MInv keys f (call keys f s a).2 := by
  unfold call
  split
  · cases hfind : find keys a s.cache with
    | some v => exact h
    | none =>
      have hnone := find_none hfind
      cases hfa : f a with
      | ok v =>
        refine ⟨?_, ?_, ?_⟩
        · intro b w hb
          rcases List.mem_cons.mp hb with e | hb
          · cases e; exact hfa
          · exact h.right b w hb
        · intro b w hb hw
          rcases List.mem_cons.mp hb with e | hb
          · subst e; rw [hfa] at hw; cases hw; simp
          · exact List.mem_cons_of_mem _ (h.evals b w hb hw)
        · intro c w hc
          rw [List.filter_cons]
          split
          · rename_i hac
            have : s.evals.filter (fun b => keys.eq b c) = [] := by
              rw [List.filter_eq_nil_iff]
              intro b hb hbc
              have hba : keys.eq b a = true := htrans _ _ _ hbc (hsymm _ _ hac)
              have hfb : f b = .ok v := by rw [hf b a hba, hfa]
              rw [hnone b v (h.evals b v hb hfb)] at hba
              cases hba
            simp [this]
          · exact h.once c w hc
      | error e =>
        refine ⟨h.right, ?_, ?_⟩
        · intro b w hb hw
          rcases List.mem_cons.mp hb with e' | hb
          · subst e'; rw [hfa] at hw; cases hw
          · exact h.evals b w hb hw
        · intro c w hc
          rw [List.filter_cons]
          split
          · rename_i hac
            rw [hf a c hac, hc] at hfa; cases hfa
          · exact h.once c w hc
  · exact h

theorem minv_after {keys : Keys A} {f : A → Py V}
    (hsymm : ∀ a b, keys.eq a b = true → keys.eq b a = true)
    (htrans : ∀ a b c, keys.eq a b = true → keys.eq b c = true → keys.eq a c = true)
    (hf : ∀ a b, keys.eq a b = true → f a = f b) (hist : List A) : MInv keys f (after keys f hist) := by
  unfold after
  have h0 : MInv keys f (MSt.init : MSt A V) := ⟨by simp [MSt.init], by simp [MSt.init], by simp [MSt.init]⟩
  revert h0
  generalize (MSt.init : MSt A V) = s
  induction hist generalizing s with
  | nil => exact id
  | cons a hist ih => intro h; exact ih _ (minv_call h hsymm htrans hf a)

/-- soundness of the cache needs only that equal arguments have equal values -/
theorem right_after {keys : Keys A} {f : A → Py V} (hist : List A) :
    ∀ b v, (b, v) ∈ (after keys f hist).cache → f b = .ok v := by
  unfold after
  have h0 : ∀ b v, (b, v) ∈ (MSt.init : MSt A V).cache → f b = .ok v := by simp [MSt.init]
  revert h0
  generalize (MSt.init : MSt A V) = s
  induction hist generalizing s with
  | nil => exact id
  | cons a hist ih =>
    intro h
    refine ih _ ?_
    intro b v hb
    change (b, v) ∈ (call keys f s a).2.cache at hb
    unfold call at hb
    split at hb
    · cases hfind : find keys a s.cache with
      | some w => rw [hfind] at hb; exact h b v hb
      | none =>
        rw [hfind] at hb
        cases hfa : f a with
        | ok w =>
          rw [hfa] at hb
          rcases List.mem_cons.mp hb with e | hb
          · cases e; exact hfa
          · exact h b v hb
        | error e => rw [hfa] at hb; exact h b v hb
    · exact h b v hb

/-! ### `persist_to_dir` -/
variable {P H B : Type} [DecidableEq P] [DecidableEq H] {env : Env A V H B} {crashes : Prop}

theorem setPc_same (s : DSt P H A V B) (p : P) (c : Pc A V B) : (setPc s p c).pc p = c := by simp [setPc]

theorem writeAt_end (old c : List B) : writeAt old old.length c = old ++ c := by simp [writeAt]

/-- what a process in the given place knows -/
def Knows (env : Env A V H B) (crashes : Prop) (s : DSt P H A V B) : Pc A V B → Prop
  | .makeDir _ => s.dir = false
  | .openFile a v => env.f a = .ok v
  | .write a v off rest => env.f a = .ok v ∧ ∃ c, s.files (env.key a) = some c ∧ off = c.length ∧ c ++ rest = (env.dump v).1
  | .returned a r => r = env.f a ∨ (crashes ∧ r = .error .json)
  | _ => True

structure DInv (env : Env A V H B) (crashes : Prop) (s : DSt P H A V B) : Prop where
  file : ∀ k c, s.files k = some c → ∃ a v, env.key a = k ∧ env.f a = .ok v ∧ c <+: (env.dump v).1 ∧
    (crashes ∨ c = (env.dump v).1 ∨ ∃ p a' v' off rest, s.pc p = .write a' v' off rest ∧ env.key a' = k)
  pcs : ∀ p, Knows env crashes s (s.pc p)

theorem dinv_init : DInv env crashes (DSt.init : DSt P H A V B) :=
  ⟨fun k c h => by simp [DSt.init] at h, fun p => by simp [DSt.init, Knows]⟩

/-- a step that leaves the files alone and does not come from writing, or comes from a crash -/
theorem dinv_move [Subsingleton P] {s : DSt P H A V B} (h : DInv env crashes s) (p : P) (c : Pc A V B) (d : Bool)
    (hw : crashes ∨ ∀ a v off rest, s.pc p ≠ .write a v off rest)
    (hk : Knows env crashes { s with dir := d } c) : DInv env crashes (setPc { s with dir := d } p c) := by
  refine ⟨?_, ?_⟩
  · intro k c' hc'
    obtain ⟨a, v, h1, h2, h3, h4⟩ := h.file k c' hc'
    refine ⟨a, v, h1, h2, h3, ?_⟩
    rcases h4 with h4 | h4 | ⟨q, a', v', off, rest, h5, h6⟩
    · exact Or.inl h4
    · exact Or.inr (Or.inl h4)
    · rcases hw with hw | hw
      · exact Or.inl hw
      · rw [Subsingleton.elim q p] at h5; exact absurd h5 (hw _ _ _ _)
  · intro q
    rw [Subsingleton.elim q p, setPc_same]
    cases c <;> exact hk

theorem dinv_step [Subsingleton P] {s t : DSt P H A V B}
    (hkey : ∀ a b, env.key a = env.key b → env.f a = env.f b)
    (hjson : ∀ a v, env.f a = .ok v → (env.dump v).2 = true ∧ env.load (env.dump v).1 = some v)
    (hpre : crashes → ∀ a v c, env.f a = .ok v → c <+: (env.dump v).1 → c ≠ (env.dump v).1 → env.load c = none)
    (h : DInv env crashes s) (hst : DStep env crashes s t) : DInv env crashes t := by
  cases hst with
  | @call p a hp => exact dinv_move h p _ s.dir (Or.inr (by rw [hp]; simp)) trivial
  | @hit p a c hp hf => exact dinv_move h p _ s.dir (Or.inr (by rw [hp]; simp)) trivial
  | @miss p a hp hf => exact dinv_move h p _ s.dir (Or.inr (by rw [hp]; simp)) trivial
  | @dirThere p a hp hd => exact dinv_move h p _ s.dir (Or.inr (by rw [hp]; simp)) trivial
  | @dirMissing p a hp hd => exact dinv_move h p _ s.dir (Or.inr (by rw [hp]; simp)) hd
  | @mkdir p a hp hd => exact dinv_move h p _ true (Or.inr (by rw [hp]; simp)) trivial
  | @mkdirExists p a hp hd =>
    have := h.pcs p; rw [hp] at this; simp only [Knows] at this; rw [hd] at this; cases this
  | @value p a v hp hv => exact dinv_move h p _ s.dir (Or.inr (by rw [hp]; simp)) hv
  | @raise p a e hp he => exact dinv_move h p _ s.dir (Or.inr (by rw [hp]; simp)) (Or.inl he.symm)
  | @openFile p a v hp =>
    have hv : env.f a = .ok v := by have := h.pcs p; rw [hp] at this; exact this
    refine ⟨?_, ?_⟩
    · intro k c hc
      by_cases e : k = env.key a
      · subst e
        simp [setPc, setFile] at hc
        subst hc
        exact ⟨a, v, rfl, hv, List.nil_prefix, Or.inr (Or.inr ⟨p, a, v, 0, _, setPc_same _ _ _, rfl⟩)⟩
      · simp only [setPc, setFile, if_neg e] at hc
        obtain ⟨b, w, h1, h2, h3, h4⟩ := h.file k c hc
        refine ⟨b, w, h1, h2, h3, ?_⟩
        rcases h4 with h4 | h4 | ⟨q, a', v', off, rest, h5, h6⟩
        · exact Or.inl h4
        · exact Or.inr (Or.inl h4)
        · rw [Subsingleton.elim q p, hp] at h5; cases h5
    · intro q
      rw [Subsingleton.elim q p, setPc_same]
      exact ⟨hv, [], by simp [setPc, setFile], rfl, rfl⟩
  | @write p a v off c rest old hp hf =>
    have hk := h.pcs p
    rw [hp] at hk
    obtain ⟨hv, old', h1, h2, h3⟩ := hk
    rw [hf] at h1; cases h1
    subst h2
    rw [writeAt_end]
    refine ⟨?_, ?_⟩
    · intro k c' hc
      by_cases e : k = env.key a
      · subst e
        simp [setPc, setFile] at hc
        subst hc
        exact ⟨a, v, rfl, hv, ⟨rest, by rw [List.append_assoc]; exact h3⟩,
          Or.inr (Or.inr ⟨p, a, v, _, _, setPc_same _ _ _, rfl⟩)⟩
      · simp only [setPc, setFile, if_neg e] at hc
        obtain ⟨b, w, h4, h5, h6, h7⟩ := h.file k c' hc
        refine ⟨b, w, h4, h5, h6, ?_⟩
        rcases h7 with h7 | h7 | ⟨q, a', v', off, rest, h8, h9⟩
        · exact Or.inl h7
        · exact Or.inr (Or.inl h7)
        · rw [Subsingleton.elim q p, hp] at h8; cases h8; exact absurd h9.symm e
    · intro q
      rw [Subsingleton.elim q p, setPc_same]
      exact ⟨hv, old ++ c, by simp [setPc, setFile], by simp, by rw [List.append_assoc]; exact h3⟩
  | @close p a v off hp =>
    have hk := h.pcs p
    rw [hp] at hk
    obtain ⟨hv, c, h1, h2, h3⟩ := hk
    rw [List.append_nil] at h3
    refine ⟨?_, ?_⟩
    · intro k c' hc
      by_cases e : k = env.key a
      · subst e
        simp only [setPc] at hc
        rw [h1] at hc; cases hc
        exact ⟨a, v, rfl, hv, by rw [h3], Or.inr (Or.inl h3)⟩
      · simp only [setPc] at hc
        obtain ⟨b, w, h4, h5, h6, h7⟩ := h.file k c' hc
        refine ⟨b, w, h4, h5, h6, ?_⟩
        rcases h7 with h7 | h7 | ⟨q, a', v', off, rest, h8, h9⟩
        · exact Or.inl h7
        · exact Or.inr (Or.inl h7)
        · rw [Subsingleton.elim q p, hp] at h8; cases h8; exact absurd h9.symm e
    · intro q
      rw [Subsingleton.elim q p, setPc_same]
      left
      rw [(hjson a v hv).1, hv]; rfl
  | @load p a c hp hf =>
    refine dinv_move h p _ s.dir (Or.inr (by rw [hp]; simp)) ?_
    obtain ⟨b, w, h1, h2, h3, h4⟩ := h.file _ c hf
    have hfa : env.f a = .ok w := by rw [← hkey b a h1, h2]
    by_cases hc : c = (env.dump w).1
    · left; rw [hc, (hjson b w h2).2, hfa]
    · rcases h4 with h4 | h4 | ⟨q, a', v', off, rest, h5, h6⟩
      · right; refine ⟨h4, ?_⟩; rw [hpre h4 b w c h2 h3 hc]
      · exact absurd h4 hc
      · rw [Subsingleton.elim q p, hp] at h5; cases h5
  | @done p a r hp => exact dinv_move h p _ s.dir (Or.inr (by rw [hp]; simp)) trivial
  | @crash p hc => exact dinv_move h p _ s.dir (Or.inl hc) trivial

theorem dinv_reachable [Subsingleton P] {s : DSt P H A V B}
    (hkey : ∀ a b, env.key a = env.key b → env.f a = env.f b)
    (hjson : ∀ a v, env.f a = .ok v → (env.dump v).2 = true ∧ env.load (env.dump v).1 = some v)
    (hpre : crashes → ∀ a v c, env.f a = .ok v → c <+: (env.dump v).1 → c ≠ (env.dump v).1 → env.load c = none)
    (h : DReachable env crashes s) : DInv env crashes s := by
  unfold DReachable at h
  generalize hi : (DSt.init : DSt P H A V B) = s0 at h
  induction h with
  | refl => subst hi; exact dinv_init
  | tail _ h2 ih => exact dinv_step hkey hjson hpre ih h2

/-- the process is not about to write a file with this key, nor has it got anything but an error from it -/
def Away (env : Env A V H B) (k : H) : Pc A V B → Prop
  | .checkDir b => env.key b ≠ k
  | .makeDir b => env.key b ≠ k
  | .compute b => env.key b ≠ k
  | .openFile b _ => env.key b ≠ k
  | .write b _ _ _ => env.key b ≠ k
  | .returned b r => env.key b = k → r = .error .json
  | _ => True

theorem poisoned_step [Subsingleton P] {s t : DSt P H A V B} {k : H} {c : List B} (hl : env.load c = none)
    (hfile : s.files k = some c) (haway : ∀ p, Away env k (s.pc p)) (hst : DStep env crashes s t) :
    t.files k = some c ∧ ∀ p, Away env k (t.pc p) := by
  have one : ∀ (u : DSt P H A V B) (p : P) (pc : Pc A V B), Away env k pc → ∀ q, Away env k ((setPc u p pc).pc q) := by
    intro u p pc h q
    rw [Subsingleton.elim q p, setPc_same]; exact h
  have away : ∀ p pc, s.pc p = pc → Away env k pc := fun p pc h => h ▸ haway p
  cases hst with
  | @call p a hp => exact ⟨hfile, one _ _ _ trivial⟩
  | @hit p a c' hp hf => exact ⟨hfile, one _ _ _ trivial⟩
  | @miss p a hp hf =>
    refine ⟨hfile, one _ _ _ ?_⟩
    intro e; rw [e, hfile] at hf; cases hf
  | @dirThere p a hp hd => have := away p _ hp; exact ⟨hfile, one _ _ _ this⟩
  | @dirMissing p a hp hd => have := away p _ hp; exact ⟨hfile, one _ _ _ this⟩
  | @mkdir p a hp hd => have := away p _ hp; exact ⟨hfile, one _ _ _ this⟩
  | @mkdirExists p a hp hd => exact ⟨hfile, one _ _ _ (fun e => absurd e (away p _ hp))⟩
  | @value p a v hp hv => have := away p _ hp; exact ⟨hfile, one _ _ _ this⟩
  | @raise p a e hp he => exact ⟨hfile, one _ _ _ (fun e => absurd e (away p _ hp))⟩
  | @openFile p a v hp =>
    have := away p _ hp
    exact ⟨by simp only [setPc, setFile]; rw [if_neg (Ne.symm this)]; exact hfile, one _ _ _ this⟩
  | @write p a v off c' rest old hp hf =>
    have := away p _ hp
    exact ⟨by simp only [setPc, setFile]; rw [if_neg (Ne.symm this)]; exact hfile, one _ _ _ this⟩
  | @close p a v off hp => exact ⟨hfile, one _ _ _ (fun e => absurd e (away p _ hp))⟩
  | @load p a c' hp hf =>
    refine ⟨hfile, one _ _ _ ?_⟩
    intro e
    rw [e, hfile] at hf; cases hf
    rw [hl]
  | @done p a r hp => exact ⟨hfile, one _ _ _ trivial⟩
  | @crash p hc => exact ⟨hfile, one _ _ _ trivial⟩

end Sureal.Memo
