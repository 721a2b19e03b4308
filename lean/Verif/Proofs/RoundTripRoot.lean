import Verif.Proofs.DecodeRoot
import Verif.Proofs.EncodeRel
import Verif.Proofs.RoundTripMain

/-! Helper lemmas for the round trip: whole messages. -/

namespace V8
open Spec

/-- Enough nesting depth for one run is enough for `loads`. -/
theorem loads_of_fuel {env : DEnv} {d : Bytes} {ver p p1 F : Nat} {t : Tag} {v : Val} {s : DS}
    (h1 : readHeader d 0 = .ok (ver, p)) (h2 : readAnyTag d p = .ok (t, p1))
    (h3 : decodeTag env F t d { DS.start p ver with pos := p1 } = .ok (v, s)) : loads env d = .ok (v, s) := by
  have hl : loads env d = decodeTag env (d.length - p + 1) t d { DS.start p ver with pos := p1 } := by
    unfold loads
    simp only [h1]
    show (RM.lift readAnyTag >>= fun t => decodeTag env (d.length - p + 1) t) d (DS.start p ver) = _
    rw [RM.bind_ok (RM.lift_ok (s := DS.start p ver) h2)]
  rw [hl]
  generalize hG : max F (d.length - p + 1) = G
  have hat : ∀ s : DS, s.at s.pos = s := fun s => rfl
  have key : ∀ n, n ≤ G → (∀ e, e ≠ .fuel → decodeTag env n t d { DS.start p ver with pos := p1 } = .error e →
        decodeTag env G t d { DS.start p ver with pos := p1 } = .error e) ∧
      ∀ a s', decodeTag env n t d { DS.start p ver with pos := p1 } = .ok (a, s') →
        decodeTag env G t d { DS.start p ver with pos := p1 } = .ok (a, s') := by
    intro n hn
    obtain ⟨g1, g2⟩ := shf_closed.decodeTag env n G hn t d { DS.start p ver with pos := p1 } d p1 ⟨rfl, rfl⟩
    refine ⟨fun e he h => g1 e he h, ?_⟩
    intro a s' h
    obtain ⟨k, hk, h'⟩ := g2 a s' h
    simp only at hk
    rw [← hk, hat] at h'
    exact h'
  have hbig := (key F (by omega)).2 v s h3
  cases hr : decodeTag env (d.length - p + 1) t d { DS.start p ver with pos := p1 } with
  | ok r =>
    obtain ⟨a, s'⟩ := r
    have := (key (d.length - p + 1) (by omega)).2 a s' hr
    rw [hbig] at this
    simp only [Except.ok.injEq, Prod.mk.injEq] at this
    rw [this.1, this.2]
  | error e =>
    exfalso
    have hall := (loads_spec env d).2 e (by rw [hl]; exact hr)
    have hne : e ≠ .fuel := by rintro rfl; exact hall
    have := (key (d.length - p + 1) (by omega)).1 e hne hr
    rw [hbig] at this
    simp at this

theorem Sim.start (env : EEnv) (z : F64) (ver : Nat) (hv : 14 ≤ ver) :
    Sim env z noPairs [] 0 [] none [] [] ver where
  pairs := ⟨fun _ _ h => h.elim, fun _ _ _ h => h.elim, fun _ _ _ h => h.elim⟩
  version := hv
  count := fun _ => rfl
  skewLe := by simp
  logged := by simp [Dict.get]
  seen := fun _ _ h => h.elim
  memo := by simp [Dict.get]

/-- The state after writing the header. -/
def WS.headed : WS := { WS.new with data := writeHeader }

/-- A message read back whose value can be. -/
theorem root_loads {env : EEnv} {z : F64} {denv : DEnv} {v : Val} {ws : WS} {F : Nat}
    (h : Obl env z (decodeTag denv F) v WS.headed ws) (hbad : Fine z ws) {suf : Bytes} (hsuf : NV suf) :
    ∃ P w ds, loads denv (ws.data ++ suf) = .ok (w, ds) ∧ ds.pos = ws.data.length ∧ SameVal env z P v w ∧
      (∀ a b, P a b → SameObject env z P ds.heap a b) ∧ Pairs env z P ds.heap ∧ SimW env z P ws ds := by
  obtain ⟨t, rest, ht, hw, hb⟩ := h
  have hdata : ws.data = writeHeader ++ (t.byte :: rest) := by
    rw [hw.data]; rfl
  have hhead : readHeader (ws.data ++ suf) 0 = .ok (15, writeHeader.length) := by
    have := readHeader_reads [] (t.byte :: rest ++ suf)
    rw [hdata]
    simpa using this
  have hall : Here (ws.data ++ suf) 0 (writeHeader ++ t.byte :: rest) suf := by
    refine ⟨by simp, ?_⟩
    rw [hdata]; simp
  have hh := hall.right
  rw [Nat.zero_add] at hh
  have htag := readAnyTag_here hh (startTag.not_padding ht)
  obtain ⟨P, w, ds, g1, g2, g3, g4, g5⟩ := hb noPairs { DS.start writeHeader.length 15 with pos := writeHeader.length + 1 }
    (Sim.start env z 15 (by omega)) hbad
  obtain ⟨_, hh2⟩ := hh.uncons
  refine ⟨P, w, ds, loads_of_fuel hhead htag (g1 _ _ hh2 hsuf), ?_, g5, ?_, g3.pairs, g3⟩
  · rw [g2, hdata]
    simp only [List.length_append, List.length_cons]
    omega
  · intro a b hab
    rcases g4.fresh a b hab with h1 | ⟨_, h1⟩
    · exact h1.elim
    · exact h1

/-- The whole message, given that no reference goes astray. -/
theorem dumps_loads {env : EEnv} {z : F64} (he : Encodable env) {denv : DEnv} (hpy : denv.py = env.py) {v : Val} {ws : WS}
    (h : dumpsState env v = .ok ws) (hbad : Fine z ws) {suf : Bytes} (hsuf : NV suf) :
    ∃ P w ds, loads denv (ws.data ++ suf) = .ok (w, ds) ∧ ds.pos = ws.data.length ∧ SameVal env z P v w ∧
      (∀ a b, P a b → SameObject env z P ds.heap a b) ∧ Pairs env z P ds.heap ∧ SimW env z P ws ds := by
  unfold dumpsState dumpsWith at h
  obtain ⟨w0, h0, h⟩ := Except.bind_eq_ok h
  have e0 : w0 = WS.headed := emit_ok h0
  subst e0
  obtain ⟨hrec, _⟩ := encode_back he hpy (encodeFuel env) (encodeFuel env + 1) (Nat.lt_succ_self _)
  exact root_loads (hrec v _ ws h rfl) hbad hsuf

/-! ## When no reference goes astray -/

theorem skew_closed {env : EEnv} (h : ∀ (i : Id) n, env.heap[i]? = some n → n.skews = false) :
    WrClosed env (fun _ => True) (fun _ _ => True) (fun a b => a.skew = none ∧ a.badRef = false → b.skew = none ∧ b.badRef = false) where
  refl := fun _ h => h
  trans := fun h1 h2 h => h2 (h1 h)
  data := fun _ _ h => h
  allowed := fun _ _ h => h
  record := fun _ _ _ h => h
  beginA := fun _ _ _ h => h
  endA := fun _ _ _ _ h => h
  mark := fun i n hi hn => by rw [h i n hi] at hn; simp at hn
  note := fun ws ws' n hn hw => by
    simp only [noteRef, Except.ok.injEq] at hn
    rw [← hn]
    simp [hw.1, hw.2]
  cur := fun _ _ => trivial
  curInv := fun _ => trivial
  inv := fun _ _ => trivial
  dedup := fun ws v _ => ⟨fun h => by rw [deduplicate_state]; exact h, trivial⟩

/-! ## One representative for each class -/

/-- Every recorded value is what `deduplicate` returns for its class. -/
def RepInv (env : EEnv) (ws : WS) : Prop :=
  MemoOK env ws.memo ∧ ∀ v, (Dict.get ws.log.ids v).isSome → IsRep env v ws

/-- The relation that keeps representatives. -/
structure RepRel (env : EEnv) (a b : WS) : Prop where
  memo : ∀ k v, Dict.get a.memo k = some v → Dict.get b.memo k = some v
  inv : RepInv env a → RepInv env b

theorem rep_record {env : EEnv} {ws : WS} {v : Val} (hv : IsRep env v ws) (log : ObjLog) (n : Nat)
    (hl : log.ids = Dict.set ws.log.ids v n) : RepRel env ws { ws with log := log } := by
  refine ⟨fun _ _ h => h, fun h => ⟨h.1, ?_⟩⟩
  intro u hu
  simp only [hl] at hu
  rw [Dict.get_set] at hu
  by_cases huv : v = u
  · subst huv; exact hv
  · rw [if_neg huv] at hu
    exact h.2 u hu

theorem rep_closed (env : EEnv) :
    WrClosed env (RepInv env) (fun v ws => RepInv env ws ∧ IsRep env v ws) (fun a b => RepRel env a b) where
  refl := fun _ => ⟨fun _ _ h => h, id⟩
  trans := fun h1 h2 => ⟨fun k v h => h2.memo k v (h1.memo k v h), fun h => h2.inv (h1.inv h)⟩
  data := fun _ _ => ⟨fun _ _ h => h, id⟩
  allowed := fun _ _ => ⟨fun _ _ h => h, id⟩
  record := fun ws v hv => rep_record hv.2 _ _ rfl
  beginA := fun ws v hv => rep_record hv.2 _ _ rfl
  endA := fun ws n v hv => ⟨fun _ _ h => h, id⟩
  mark := fun i n hi hn ws ws' h => by rw [markSkew_ok h]; exact ⟨fun _ _ h => h, id⟩
  note := fun ws ws' n h => by
    simp only [noteRef, Except.ok.injEq] at h
    rw [← h]
    exact ⟨fun _ _ h => h, id⟩
  cur := fun h1 h2 => ⟨h1.inv h2.1, fun k hk => h1.memo k _ (h2.2 k hk)⟩
  curInv := fun h => h.1
  inv := fun h1 h2 => h1.inv h2
  dedup := fun ws v h => by
    have hst : RepInv env (deduplicate env v ws).2 := by
      refine ⟨deduplicate_memo v h.1, ?_⟩
      intro u hu k hk
      rw [dedup_log] at hu
      exact deduplicate_grows v ws k u (h.2 u hu k hk)
    exact ⟨⟨deduplicate_grows v ws, fun _ => hst⟩, hst, deduplicate_rep v ws h.1⟩

theorem dumps_rep {env : EEnv} {v : Val} {ws : WS} (h : dumpsState env v = .ok ws) : RepInv env ws := by
  unfold dumpsState dumpsWith at h
  obtain ⟨w0, h0, h⟩ := Except.bind_eq_ok h
  have hi : RepInv env w0 := by
    rw [emit_ok h0]
    exact ⟨by simp [MemoOK, WS.new, Dict.get], by simp [WS.new, ObjLog.empty, Dict.get]⟩
  exact ((rep_closed env).encodeObject _ v _ _ hi h).inv hi

/-- Objects of one class that were recorded are one object. -/
theorem rep_unique {env : EEnv} {ws : WS} (h : RepInv env ws) {u v : Val} {k : DKey}
    (hu : (Dict.get ws.log.ids u).isSome) (hv : (Dict.get ws.log.ids v).isSome)
    (hku : dkey env u = some k) (hkv : dkey env v = some k) : u = v := by
  have h1 := h.2 u hu k hku
  have h2 := h.2 v hv k hkv
  rw [h1] at h2
  exact Option.some.inj h2

theorem dumps_no_skew {env : EEnv} (hn : ∀ (i : Id) n, env.heap[i]? = some n → n.skews = false) {v : Val} {ws : WS}
    (h : dumpsState env v = .ok ws) : ws.skew = none ∧ ws.badRef = false := by
  unfold dumpsState dumpsWith at h
  obtain ⟨w0, h0, h⟩ := Except.bind_eq_ok h
  refine (skew_closed hn).encodeObject _ v _ _ trivial h ?_
  rw [emit_ok h0]
  exact ⟨rfl, rfl⟩

theorem NumberedAlike.skews {env : EEnv} (h : NumberedAlike env) (i : Id) (n : Node) (hi : env.heap[i]? = some n) :
    n.skews = false := by
  have := h i n hi
  cases n <;> simp_all [Node.skews]

end V8
