import Verif.Props.Tight5
import Verif.Props.Sim900Parse
import Verif.Props.JSONTable
/-!
# Properties C131 (a reply without a space is not a registration) and C65 (the identity of a set of statistics)
-/

namespace OTR.Props
open OTR

theorem getRespFrom_none (c : Byte) : ∀ (d : Bytes) (i : Nat), c ∉ d → getRespFrom c d i = none
  | [], _, _ => rfl
  | x :: t, i, h => by
    unfold getRespFrom
    rw [if_neg (show ¬ x = c from fun e => h (e ▸ List.mem_cons_self)), getRespFrom_none c t (i + 1) (fun m => h (List.mem_cons_of_mem _ m))]

/-- **C131.** A reply in which no space arrives within the 64 characters read — silence, an error text such as `ERROR`, a
garbled line without one — is not taken for a registration. -/
theorem C131_no_registration (r : Bytes) (oob : Byte) (h : (32 : Byte) ∉ r.take 64) : isRegistered r oob = false := by
  unfold isRegistered getResp
  rw [getRespFrom_none]
  unfold readMany
  rw [List.take_append]
  intro m
  rcases List.mem_append.1 m with m | m
  · exact h m
  · have := List.mem_replicate.1 (List.mem_of_mem_take m)
    exact absurd this.2 (by decide)

example : (32 : Byte) ∉ (ascii "\r\nERROR\r\n").take 64 ∧ isRegistered (ascii "\r\nERROR\r\n") 49 = false := by decide +kernel

/-- **C65.** `setID` says whether it took the identity: it takes it exactly when every character may stand in a JSON string
as it is, and then only the identity changes; an identity refused leaves the set of statistics as it was. -/
theorem C65_identity (s : StatSet) (i : Bytes) :
    ((s.setID i).1 = true ↔ ∀ c ∈ i, 32 ≤ c.toNat ∧ c.toNat ≤ 126 ∧ c ≠ 0x22 ∧ c ≠ 0x5c) ∧
    ((s.setID i).1 = true → (s.setID i).2 = { s with id := some i }) ∧
    ((s.setID i).1 = false → (s.setID i).2 = s) := by
  have e : validKey i = true ↔ ∀ c ∈ i, 32 ≤ c.toNat ∧ c.toNat ≤ 126 ∧ c ≠ 0x22 ∧ c ≠ 0x5c := by
    unfold validKey; simp [and_assoc]
  rw [← e]
  unfold StatSet.setID
  by_cases h : validKey i = true
  · simp [h]
  · simp [h]

example : (StatSet.setID { cap := 2 } (ascii "819c")).1 = true ∧ (StatSet.setID { cap := 2 } (ascii "a\"b")).1 = false := by decide +kernel

end OTR.Props
