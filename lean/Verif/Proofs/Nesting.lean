import Verif.Model.Nesting
import Verif.Spec.Nesting
import Verif.Proofs.LanguageMain

/-! Reading and writing with limited room. -/

namespace V8.Lang

open V8.Spec V8.Spec.Lang

theorem decodeRoom_none (env : DEnv) (frames : Tag → Nat) {room : Nat} {t : Tag} (h : room ≤ frames t) :
    decodeRoom env frames room t = RM.fail .fuel := by
  rw [decodeRoom, dif_pos h]

theorem decodeRoom_some (env : DEnv) (frames : Tag → Nat) {room : Nat} {t : Tag} (h : ¬ room ≤ frames t) :
    decodeRoom env frames room t =
      (tick >>= fun _ => tagReader env (decodeRoom env frames (room - (frames t + 1))) t unhandledTag) := by
  rw [decodeRoom, dif_neg h]

theorem room_sub (env : DEnv) (frames : Tag → Nat) (room n : Nat) (hn : room ≤ n) (t : Tag) :
    Sub (decodeRoom env frames room t) (decodeTag env n t) := by
  induction room using Nat.strongRecOn generalizing n t with
  | ind room ih =>
    by_cases h : room ≤ frames t
    · rw [decodeRoom_none env frames h]; exact sub_closed.fuelLeft _
    · obtain ⟨k, rfl⟩ : ∃ k, n = k + 1 := ⟨n - 1, by omega⟩
      rw [decodeRoom_some env frames h, decodeTag_succ]
      exact sub_closed.bind sub_closed.tick fun _ =>
        sub_closed.tagReader env (fun t' => ih _ (by omega) k (by omega) t') t (fun _ => sub_closed.fail _)

theorem room_mono (env : DEnv) (frames : Tag → Nat) (room room' : Nat) (hn : room ≤ room') (t : Tag) :
    Sub (decodeRoom env frames room t) (decodeRoom env frames room' t) := by
  induction room using Nat.strongRecOn generalizing room' t with
  | ind room ih =>
    by_cases h : room ≤ frames t
    · rw [decodeRoom_none env frames h]; exact sub_closed.fuelLeft _
    · rw [decodeRoom_some env frames h, decodeRoom_some env frames (by omega)]
      exact sub_closed.bind sub_closed.tick fun _ =>
        sub_closed.tagReader env (fun t' => ih _ (by omega) _ (by omega) t') t (fun _ => sub_closed.fail _)

/-- With enough room for each level the nesting is limited by `n` only. -/
theorem sub_room (env : DEnv) (frames : Tag → Nat) (K : Nat) (hK : ∀ t, frames t < K) (n room : Nat) (hn : K * n ≤ room)
    (t : Tag) : Sub (decodeTag env n t) (decodeRoom env frames room t) := by
  induction n generalizing room t with
  | zero => exact sub_closed.fuelLeft _
  | succ n ih =>
    have hk := hK t
    have hm : K * (n + 1) = K * n + K := Nat.mul_succ K n
    rw [decodeRoom_some env frames (by omega), decodeTag_succ]
    exact sub_closed.bind sub_closed.tick fun _ =>
      sub_closed.tagReader env (fun t' => ih _ (by omega) t') t (fun _ => sub_closed.fail _)

theorem Fwd.room (env : DEnv) (frames : Tag → Nat) (room : Nat) : Fwd (decodeRoom env frames room) := by
  intro t d s v s' h
  rcases room_sub env frames room room (Nat.le_refl _) t d s with hs | hs
  · exact Fwd.decodeTag env room t d s v s' (hs ▸ h)
  · rw [h] at hs; cases hs

variable {d : Bytes} {ver : Nat}

theorem bodyIn_none (env : DEnv) (frames : Tag → Nat) {room : Nat} {t : Tag} (h : room ≤ frames t) :
    BodyIn env ver frames room t = fun _ _ _ _ _ => False := by
  rw [BodyIn, dif_pos h]

theorem bodyIn_some (env : DEnv) (frames : Tag → Nat) {room : Nat} {t : Tag} (h : ¬ room ≤ frames t) :
    BodyIn env ver frames room t = Body env ver (BodyIn env ver frames (room - (frames t + 1))) t := by
  rw [BodyIn, dif_neg h]

theorem room_spec (env : DEnv) (frames : Tag → Nat) (room : Nat) (t : Tag) :
    RMSpec d ver (decodeRoom env frames room t) (BodyIn env ver frames room t) := by
  induction room using Nat.strongRecOn generalizing t with
  | ind room ih =>
    by_cases h : room ≤ frames t
    · rw [decodeRoom_none env frames h, bodyIn_none env frames h]; exact RMSpec.fail _
    · rw [decodeRoom_some env frames h, bodyIn_some env frames h]
      have hF : ∀ n t, BodyIn env ver frames n t = (fun _ _ _ _ _ => False) ∨
          ∃ R, BodyIn env ver frames n t = Body env ver R t := by
        intro n t
        by_cases hn : n ≤ frames t
        · exact .inl (bodyIn_none env frames hn)
        · exact .inr ⟨_, bodyIn_some env frames hn⟩
      have h1 : ∀ n w i v w' r, ¬ BodyIn env ver frames n .kEndJSMap w i v w' r := by
        intro n w i v w' r hb
        rcases hF n .kEndJSMap with e | ⟨R, e⟩ <;> rw [e] at hb <;> exact hb
      have h2 : ∀ n w i v w' r, ¬ BodyIn env ver frames n .kEndJSSet w i v w' r := by
        intro n w i v w' r hb
        rcases hF n .kEndJSSet with e | ⟨R, e⟩ <;> rw [e] at hb <;> exact hb
      have h3 : ∀ n t w i b w' r, keyTag t → ¬ BodyIn env ver frames n t w i (.bool b) w' r := by
        intro n t w i b w' r ht hb
        rcases hF n t with e | ⟨R, e⟩ <;> rw [e] at hb
        · exact hb
        · exact body_notBool env R t w i b w' r ht hb
      refine (RMSpec.tick.bind fun _ => tagReader_spec env (ih _ (by omega)) (Fwd.room env frames _) (h1 _) (h2 _) (h3 _) t).congr
        fun w i v w' r => ?_
      constructor
      · rintro ⟨_, w1, m, ⟨rfl, rfl⟩, h⟩; exact h
      · intro h; exact ⟨(), w, i, ⟨rfl, rfl⟩, h⟩

theorem loadsRoom_eq (env : DEnv) (frames : Tag → Nat) (room : Nat) {data : Bytes} {version p : Nat}
    (h : readHeader data 0 = .ok (version, p)) :
    loadsRoom env frames room data = decodeNext (decodeRoom env frames room) data (DS.start p version) := by
  unfold loadsRoom
  rw [h]

theorem loadsRoom_error (env : DEnv) (frames : Tag → Nat) (room : Nat) {data : Bytes} {e : DErr}
    (h : readHeader data 0 = .error e) : loadsRoom env frames room data = .error e ∧ loads env data = .error e := by
  unfold loadsRoom loads
  rw [h]
  exact ⟨rfl, rfl⟩

theorem loads_deep (env : DEnv) {data : Bytes} {version p : Nat} (h : readHeader data 0 = .ok (version, p)) (n : Nat)
    (hn : data.length - p + 1 ≤ n) : loads env data = decodeNext (decodeTag env n) data (DS.start p version) := by
  have hl : loads env data = decodeNext (decodeTag env (data.length - p + 1)) data (DS.start p version) := by
    unfold loads; rw [h]
  rcases next_sub env hn data (DS.start p version) with hs | hs
  · rw [hl, hs]
  · exact ((loads_spec env data).2 _ (hl.trans hs)).elim

theorem loadsRoom_or (env : DEnv) (frames : Tag → Nat) (room : Nat) (data : Bytes) :
    loadsRoom env frames room data = loads env data ∨ loadsRoom env frames room data = .error .fuel := by
  cases h : readHeader data 0 with
  | error e => exact .inl ((loadsRoom_error env frames room h).1.trans (loadsRoom_error env frames room h).2.symm)
  | ok x =>
    obtain ⟨version, p⟩ := x
    rw [loadsRoom_eq env frames room h, loads_deep env h (max room (data.length - p + 1)) (Nat.le_max_right _ _)]
    exact (sub_closed.decodeNext fun t => room_sub env frames room _ (Nat.le_max_left _ _) t) data _

theorem loadsRoom_iff (env : DEnv) (frames : Tag → Nat) (room : Nat) (data : Bytes) (v : Val) (w : World) :
    (∃ s, loadsRoom env frames room data = .ok (v, s) ∧ s.heap = w.heap ∧ s.log.slots = w.numbered.map .obj) ↔
      MessageIn env frames room data v w := by
  constructor
  · rintro ⟨s, h1, h2, h3⟩
    cases hh : readHeader data 0 with
    | error e => rw [(loadsRoom_error env frames room hh).1] at h1; cases h1
    | ok x =>
      obtain ⟨version, p⟩ := x
      rw [loadsRoom_eq env frames room hh] at h1
      obtain ⟨hp, m1, g1, g2, g3, g4⟩ := header_spec.sound _ _ _ _ (Nat.zero_le _) hh
      obtain ⟨w', r, k1, k2⟩ := (next_spec (room_spec env frames room)).sound _ _ _ _ _ (start_at hp) h1
      refine ⟨version, m1, _, r, g1, g2, g3, g4, ?_⟩
      obtain ⟨n', h'⟩ := w'
      obtain ⟨n, h⟩ := w
      have e1 : h' = h := k1.heap.symm.trans h2
      have e2 : n' = n := (List.map_inj_right (fun a b hab => by cases hab; rfl)).1 (k1.slots.symm.trans h3)
      subst e1 e2
      exact k2
  · rintro ⟨version, m1, m2, rest, g1, g2, g3, g4, g5⟩
    obtain ⟨p, h1, h2, rfl⟩ := header_spec.complete data 0 version m2 (Nat.zero_le _) ⟨m1, g1, g2, g3, g4⟩
    obtain ⟨s, k1, k2⟩ := (next_spec (room_spec env frames room)).complete _ _ _ _ _ _ (start_at h2) g5
    exact ⟨s, (loadsRoom_eq env frames room h1).trans k1, k2.heap, k2.slots⟩

end V8.Lang
