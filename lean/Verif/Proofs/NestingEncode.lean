import Verif.Model.Nesting
import Verif.Proofs.EncodeFuel

/-! Writing with limited room. -/

namespace V8

theorem encodeRoom_none (env : EEnv) (frames : Val → Nat) {room : Nat} {v : Val} (h : room ≤ frames v) :
    encodeRoom env frames room v = fun _ => .error .fuel := by
  rw [encodeRoom, dif_pos h]

theorem encodeRoom_some (env : EEnv) (frames : Val → Nat) {room : Nat} {v : Val} (h : ¬ room ≤ frames v) :
    encodeRoom env frames room v =
      refsStep env v fun v' => tagWriter env (encodeRoom env frames (room - (frames v + 1))) v' unhandledValue := by
  rw [encodeRoom, dif_neg h]

theorem agree_refs {env : EEnv} {f g : Val → Wr} (h : ∀ v, Agree (f v) (g v)) (v : Val) :
    Agree (refsStep env v f) (refsStep env v g) := by
  intro ws hne
  unfold refsStep at *
  simp only at hne ⊢
  split at hne
  · rename_i hc
    simp only [if_pos hc]
  · rename_i hc
    simp only [if_neg hc] at hne ⊢
    exact h _ _ hne

theorem encodeRoom_agree (env : EEnv) (frames : Val → Nat) (room n : Nat) (hn : room ≤ n) (v : Val) :
    Agree (encodeRoom env frames room v) (encodeObject env n v) := by
  induction room using Nat.strongRecOn generalizing n v with
  | ind room ih =>
    by_cases h : room ≤ frames v
    · rw [encodeRoom_none env frames h]; exact fun _ hne => absurd rfl hne
    · obtain ⟨k, rfl⟩ : ∃ k, n = k + 1 := ⟨n - 1, by omega⟩
      rw [encodeRoom_some env frames h, encodeObject_succ]
      exact agree_refs (fun x => agree_tagWriter (fun y => ih _ (by omega) k (by omega) y) env x) v

theorem agree_encodeRoom (env : EEnv) (frames : Val → Nat) (K : Nat) (hK : ∀ v, frames v < K) (n room : Nat)
    (hn : K * n ≤ room) (v : Val) : Agree (encodeObject env n v) (encodeRoom env frames room v) := by
  induction n generalizing room v with
  | zero => exact fun _ hne => absurd rfl hne
  | succ n ih =>
    have hk := hK v
    have hm : K * (n + 1) = K * n + K := Nat.mul_succ K n
    rw [encodeRoom_some env frames (by omega), encodeObject_succ]
    exact agree_refs (fun x => agree_tagWriter (fun y => ih _ (by omega) y) env x) v

end V8
