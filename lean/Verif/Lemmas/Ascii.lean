import Verif.Model.Written
import Verif.Spec.Ascii
import Verif.Spec.Json
import Mathlib.Tactic.IntervalCases
/-!
# Helper lemmas: the encoder writes plain text
-/
set_option linter.unusedSectionVars false
namespace Sureal.Ascii
open Sureal Spec JsonOut Written Sureal.Spec.Json

theorem nil : PlainText [] := fun _ h => by cases h

theorem cons {c : Char} {t : List Char} (h : c = '\n' ∨ PrintableAscii c) (ht : PlainText t) : PlainText (c :: t) := by
  intro d hd
  rcases List.mem_cons.mp hd with rfl | hd
  · exact h
  · exact ht d hd

theorem append {s t : List Char} (hs : PlainText s) (ht : PlainText t) : PlainText (s ++ t) := by
  intro d hd
  rcases List.mem_append.mp hd with hd | hd
  · exact hs d hd
  · exact ht d hd

theorem lit {t : List Char} (h : t.all (fun c => decide (c = '\n') || (decide (32 ≤ c.toNat) && decide (c.toNat ≤ 126))) = true) : PlainText t := by
  intro c hc
  have := List.all_eq_true.mp h c hc
  simp only [Bool.or_eq_true, Bool.and_eq_true, decide_eq_true_eq] at this
  exact this

theorem hexDigit_plain (n : ℕ) (h : n < 16) : PrintableAscii (hexDigit n) := by
  unfold PrintableAscii
  interval_cases n <;> decide

theorem hex4_plain (n : ℕ) : PlainText (hex4 n) := by
  intro c hc
  right
  simp only [hex4, List.mem_cons, List.not_mem_nil, or_false] at hc
  rcases hc with rfl | rfl | rfl | rfl <;> exact hexDigit_plain _ (Nat.mod_lt _ (by norm_num))

theorem escape_plain (c : Char) : PlainText (escape c) := by
  unfold escape
  repeat' split
  all_goals first
    | exact lit (by decide)
    | exact cons (Or.inr ⟨by assumption, by assumption⟩) nil
    | (rename_i h; exact cons (Or.inr h) nil)
    | exact cons (Or.inr (by unfold PrintableAscii; decide)) (cons (Or.inr (by unfold PrintableAscii; decide)) (hex4_plain _))
    | exact append (cons (Or.inr (by unfold PrintableAscii; decide)) (cons (Or.inr (by unfold PrintableAscii; decide)) (hex4_plain _)))
        (cons (Or.inr (by unfold PrintableAscii; decide)) (cons (Or.inr (by unfold PrintableAscii; decide)) (hex4_plain _)))

theorem encStr_plain (s : List Char) : PlainText (encStr s) := by
  unfold encStr
  refine append (cons (Or.inr (by unfold PrintableAscii; decide)) ?_) (lit (by decide))
  intro c hc
  obtain ⟨d, -, hd⟩ := List.mem_flatMap.mp hc
  exact escape_plain d c hd

theorem newline_plain (n : ℕ) : PlainText (newline n) := by
  refine cons (Or.inl rfl) fun c hc => Or.inr ?_
  rw [List.eq_of_mem_replicate hc]
  unfold PrintableAscii
  decide

theorem digits_plain {t : List Char} (h : IsDigits t) : PlainText t := by
  intro c hc
  have := h.2 c hc
  unfold IsDigit at this
  right
  exact ⟨le_trans (by decide) this.1, le_trans this.2 (by decide)⟩

theorem number_plain {t : List Char} (h : IsNumber t) : PlainText t := by
  obtain ⟨s, i, f, e, hs, hi, hf, he, rfl⟩ := h
  refine append (append (append ?_ ?_) ?_) ?_
  · rcases hs with rfl | rfl <;> exact lit (by decide)
  · rcases hi with rfl | ⟨hi, -⟩
    · exact lit (by decide)
    · exact digits_plain hi
  · rcases hf with rfl | ⟨d, hd, rfl⟩
    · exact nil
    · exact cons (Or.inr (by unfold PrintableAscii; decide)) (digits_plain hd)
  · rcases he with rfl | ⟨x, s, d, hx, hs, hd, rfl⟩
    · exact nil
    · refine append (cons ?_ ?_) (digits_plain hd)
      · rcases hx with rfl | rfl <;> exact Or.inr (by unfold PrintableAscii; decide)
      · rcases hs with rfl | rfl | rfl <;> exact lit (by decide)

variable {K : Type} {repr : K → List Char}

theorem encNum_plain (hr : ∀ x, IsNumber (repr x)) (x : Fl K) : PlainText (encNum repr x) := by
  cases x with
  | fin v => exact number_plain (hr v)
  | nan => exact lit (t := ['N', 'a', 'N']) (by decide)
  | pinf => exact lit (t := ['I', 'n', 'f', 'i', 'n', 'i', 't', 'y']) (by decide)
  | ninf => exact lit (t := ['-', 'I', 'n', 'f', 'i', 'n', 'i', 't', 'y']) (by decide)

theorem after_plain {p q : Piece} (hp : PlainText p.1) (hq : PlainText q.1) : PlainText (after p q).1 := by
  unfold after
  split
  · exact append hp hq
  · exact hp

theorem rest_plain (level : ℕ) : ∀ l : List Piece, (∀ p ∈ l, PlainText p.1) → PlainText (rest level l).1
  | [], _ => nil
  | p :: l, h => by
    unfold rest
    exact after_plain (cons (Or.inr (by unfold PrintableAscii; decide)) (newline_plain _))
      (after_plain (h p List.mem_cons_self) (rest_plain level l fun q hq => h q (List.mem_cons_of_mem _ hq)))

theorem enclosed_plain {o c : Char} (ho : PrintableAscii o) (hc : PrintableAscii c) (level : ℕ) {l : List Piece} (h : ∀ p ∈ l, PlainText p.1) :
    PlainText (enclosed o c level l).1 := by
  cases l with
  | nil => exact cons (Or.inr ho) (cons (Or.inr hc) nil)
  | cons p l =>
    unfold enclosed
    exact after_plain (cons (Or.inr ho) (newline_plain _)) (after_plain (h p List.mem_cons_self)
      (after_plain (rest_plain _ l fun q hq => h q (List.mem_cons_of_mem _ hq)) (append (newline_plain _) (cons (Or.inr hc) nil))))

mutual
theorem write_plain (hr : ∀ x, IsNumber (repr x)) (level : ℕ) : ∀ t : Doc (Obj K), PlainText (write repr level t).1
  | .null => by rw [write]; exact lit (by decide)
  | .bool true => by rw [write]; exact lit (by decide)
  | .bool false => by rw [write]; exact lit (by decide)
  | .num (.float x) => by rw [write]; exact encNum_plain hr x
  | .num (.array _) => by rw [write]; exact nil
  | .str s => by rw [write]; exact encStr_plain s
  | .arr l => by
    rw [write]
    exact enclosed_plain (by unfold PrintableAscii; decide) (by unfold PrintableAscii; decide) level (items_plain hr (level + 1) l)
  | .obj l => by
    rw [write]
    exact enclosed_plain (by unfold PrintableAscii; decide) (by unfold PrintableAscii; decide) level (members_plain hr (level + 1) l)
theorem items_plain (hr : ∀ x, IsNumber (repr x)) (level : ℕ) : ∀ l : List (Doc (Obj K)), ∀ p ∈ writeItems repr level l, PlainText p.1
  | [], p, hp => by rw [writeItems] at hp; cases hp
  | t :: l, p, hp => by
    rw [writeItems] at hp
    rcases List.mem_cons.mp hp with rfl | hp
    · exact write_plain hr level t
    · exact items_plain hr level l p hp
theorem members_plain (hr : ∀ x, IsNumber (repr x)) (level : ℕ) : ∀ l : List (List Char × Doc (Obj K)), ∀ p ∈ writeMembers repr level l, PlainText p.1
  | [], p, hp => by rw [writeMembers] at hp; cases hp
  | (k, t) :: l, p, hp => by
    rw [writeMembers] at hp
    rcases List.mem_cons.mp hp with rfl | hp
    · exact after_plain (append (encStr_plain k) (lit (by decide))) (write_plain hr level t)
    · exact members_plain hr level l p hp
end

end Sureal.Ascii
