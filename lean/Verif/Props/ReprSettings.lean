import Verif.Proofs.ReprSettings

/-!
# C65: blocks of `js_repr_settings` restore the settings

Full statement: when every block of `js_repr_settings` that was entered has been left, in whatever order, the
JSRepr that was active before is active again.  It is false (`C65_overlap_leaks`, `C65_force_leaks`).
-/

namespace V8.Props
open Spec

/-- `default_js_repr` was made by the constructor. -/
def Made (fs : ReprFields) : Prop := ∃ kw, mkJSRepr kw = .ok fs

/-- Nested blocks restore what was active before, without a warning: whatever their arguments are, also JSRepr
objects used by several blocks, and whatever else is going on. -/
theorem C65_nested_restores_partial {s s' : ReprState} {es : List ReprEvent} (hn : Nested s.blocks.length es)
    (h : reprRun s es = .ok s') : s'.active = s.active ∧ s'.warnings = s.warnings := by
  obtain ⟨hc, hw⟩ := chain_run (a0 := s.active) .nil h hn
  generalize hpa : s'.active = a at hc
  cases hc
  exact ⟨rfl, hw⟩

/-- Blocks with keyword arguments: exactly the nested ones restore what was active before, and exactly the others
warn. -/
theorem C65_restored_iff_nested {s s' : ReprState} {es : List ReprEvent} (hs : s.active < s.objs.length)
    (hp : Plain es) (hc : Complete s.blocks.length es) (h : reprRun s es = .ok s') :
    (s'.active = s.active ↔ Nested s.blocks.length es) ∧
      (s'.warnings = s.warnings ↔ Nested s.blocks.length es) := by
  obtain ⟨path', hi, hle, hlen, _, hz, hnest, hexit⟩ :=
    own_run (OwnInv.refl hs) hp (fun k hk => ((hc k).mp hk).1) h
  -- a path of open blocks only is empty
  have hempty : s'.warnings = s.warnings → Nested s.blocks.length es := by
    intro hw
    have hn := hnest hw
    cases path' with
    | nil => exact hn
    | cons k rest =>
      exfalso
      have hge := hi.pathGe k List.mem_cons_self
      have hlt := hi.chain.lt k List.mem_cons_self
      have hmem := (hc k).mpr ⟨hge, by omega⟩
      obtain ⟨st, hst⟩ : ∃ st, Chain s'.blocks s.active (k :: rest) st := ⟨_, hi.chain⟩
      cases hst with
      | @cons _ b _ hb _ =>
        cases ho : b.isOpen with
        | true => exact hexit k b hb ho hmem
        | false =>
          have := nesting_open (a0 := s.active) .nil List.nodup_nil (fun _ _ hm => by cases hm) h hn k b
            List.mem_cons_self hb
          rw [ho] at this; cases this
  refine ⟨⟨fun ha => ?_, fun hn => (C65_nested_restores_partial hn h).1⟩,
    hempty, fun hn => (C65_nested_restores_partial hn h).2⟩
  refine hempty ?_
  by_contra hne
  obtain ⟨k, _, hk, _⟩ := hz (by omega)
  exact hi.away (fun hp => by rw [hp] at hk; cases hk) ha

/-- Once such a block has warned, what was active before is never active again, whatever blocks come and go
afterwards. -/
theorem C65_never_restored {s s1 s2 : ReprState} {es more : List ReprEvent} (hs : s.active < s.objs.length)
    (hp : Plain es) (ho : LeavesOwn s.blocks.length es) (h : reprRun s es = .ok s1) (hw : s1.warnings ≠ s.warnings)
    (hp' : Plain more) (ho' : LeavesOwn s.blocks.length more) (h' : reprRun s1 more = .ok s2) :
    s2.active ≠ s.active := by
  obtain ⟨path1, hi1, hle, _, _, hz, _, _⟩ := own_run (OwnInv.refl hs) hp ho h
  obtain ⟨path2, hi2, _, _, hz2, _, _, _⟩ := own_run hi1 hp' ho' h'
  obtain ⟨k, _, hk, _⟩ := hz2 (hz (by omega))
  exact hi2.away (fun hp => by rw [hp] at hk; cases hk)

/-- Within a block each setting is the argument given for it, else that of the settings around it. -/
theorem C65_block_settings {s s' : ReprState} {kw : ReprKwargs} {force : Bool} {around fs : ReprFields}
    (hk : (kw.map Prod.fst).Nodup) (ha : s.objs[s.active]? = some around) (hm : Made around)
    (h : enterBlock s (.kwargs kw) force = .ok s') (hf : s'.objs[s'.active]? = some fs) :
    Made fs ∧ ∀ name ∈ knownFields, ∃ v, Dict.get around name = some v ∧
      Dict.get fs name = some (blockSetting v name kw) := by
  obtain ⟨r, objs, hr, rfl⟩ := enterBlock_ok h
  obtain ⟨st, hst, new, hmk, rfl, rfl⟩ := blockRepr_made ha hr
  simp only [List.getElem?_concat_length, Option.some.injEq] at hf
  subst hf
  refine ⟨⟨_, hmk⟩, fun name hn => ?_⟩
  obtain ⟨kw0, hkw0⟩ := hm
  obtain ⟨v, hv, hvn, _⟩ := mkJSRepr_get hkw0 hn
  refine ⟨v, hv, ?_⟩
  obtain ⟨_, hget⟩ := inheritedFields_get (fs := around) (names := knownFields) (by decide)
    (fun k hk => let ⟨w, hw, _⟩ := mkJSRepr_get hkw0 hk; ⟨w, hw⟩)
  obtain ⟨_, _, h3⟩ := overrideFields_spec hk hst
  have hst' := h3 name v (by rw [hget name hn]; exact hv)
  obtain ⟨w, hw, _, hw2⟩ := mkJSRepr_get hmk hn
  rw [hw, hw2 _ (find_of_get hst') (blockSetting_stored hvn)]

/-- Entering a block fails exactly for a keyword argument that is no setting, with TypeError, and then nothing
changes. -/
theorem C65_unknown_setting {s : ReprState} {kw : ReprKwargs} {force : Bool} {around : ReprFields}
    (hk : (kw.map Prod.fst).Nodup) (ha : s.objs[s.active]? = some around) (hm : Made around) :
    (∃ name v, (name, v) ∈ kw ∧ name ∉ knownFields) ↔ enterBlock s (.kwargs kw) force = .error .typeError := by
  obtain ⟨kw0, hkw0⟩ := hm
  obtain ⟨hkeys, hget⟩ := inheritedFields_get (fs := around) (names := knownFields) (by decide)
    (fun k hk => let ⟨w, hw, _⟩ := mkJSRepr_get hkw0 hk; ⟨w, hw⟩)
  constructor
  · rintro ⟨name, v, hmem, hnot⟩
    unfold enterBlock
    simp only [blockRepr, ha]
    cases ho : overrideFields (inheritedFields around knownFields) kw with
    | error e => rw [overrideFields_exc ho]
    | ok st =>
      obtain ⟨_, h2, _⟩ := overrideFields_spec hk ho
      have := h2 _ hmem
      rw [hkeys] at this
      exact absurd this hnot
  · intro h
    by_contra hno
    obtain ⟨st, hst⟩ := overrideFields_ok (kw := kw) (st := inheritedFields around knownFields) (by
      intro p hp
      rw [hkeys]
      by_contra hc
      exact hno ⟨p.1, p.2, hp, hc⟩)
    obtain ⟨h1, _, _⟩ := overrideFields_spec hk hst
    obtain ⟨fs, hfs⟩ := mkJSRepr_error (kw := st) (by
      intro p hp
      have : p.1 ∈ Dict.keys st := List.mem_map_of_mem hp
      rw [h1, hkeys] at this
      exact this)
    unfold enterBlock at h
    simp only [blockRepr, ha, hst, hfs] at h
    cases h

/-- A given JSRepr is what becomes active, and keyword arguments beside it have no effect. -/
theorem C65_given_object (s : ReprState) (r : Nat) (force : Bool) :
    ∃ s', enterBlock s (.obj r) force = .ok s' ∧ s'.active = r ∧ s'.objs = s.objs := ⟨_, rfl, rfl, rfl⟩

/-- `with js_repr_settings(maxlevel=n)` -/
def levelBlock (n : Int) (force : Bool) : ReprEvent := .enter (.kwargs [("maxlevel", .int n)]) force

/-- `maxlevel` of the active settings. -/
def activeLevel (s : ReprState) : Option FieldVal := s.objs[s.active]?.bind (fun fs => Dict.get fs "maxlevel")

/-- Two blocks that overlap: the first is left before the second.  Both have been left, yet the settings of the first
stay, for good. -/
theorem C65_overlap_leaks :
    ∃ s', reprRun reprStart [levelBlock 1 false, levelBlock 2 false, .exit 0, .exit 1] = .ok s' ∧
      (∀ b ∈ s'.blocks, b.isOpen = false) ∧ activeLevel reprStart = some (.int 20) ∧
      activeLevel s' = some (.int 1) ∧ s'.warnings = 1 := by
  refine ⟨_, rfl, ?_⟩
  decide +kernel

/-- `force_restore=True` in both blocks: the same, without a warning. -/
theorem C65_force_leaks :
    ∃ s', reprRun reprStart [levelBlock 1 true, levelBlock 2 true, .exit 0, .exit 1] = .ok s' ∧
      (∀ b ∈ s'.blocks, b.isOpen = false) ∧ activeLevel s' = some (.int 1) ∧ s'.warnings = 0 := by
  refine ⟨_, rfl, ?_⟩
  decide +kernel

/-! ## The hypotheses can be met -/

example : Made (reprStart.objs.head (by decide)) := ⟨reprStart.objs.head (by decide), by decide +kernel⟩

/-- Nested blocks, one of them forced, one with a given object. -/
example : Nested 0 [levelBlock 1 false, levelBlock 2 true, .enter (.obj 1) false, .exit 2, .exit 1, levelBlock 3 false,
    .exit 3, .exit 0] := by unfold Nested; decide

example : ∃ s', reprRun reprStart [levelBlock 1 false, levelBlock 2 true, .enter (.obj 1) false, .exit 2, .exit 1,
    levelBlock 3 false, .exit 3, .exit 0] = .ok s' := ⟨_, rfl⟩

example : Plain [levelBlock 1 false, levelBlock 2 false, .exit 0, .exit 1] := by
  intro e he
  simp only [List.mem_cons, List.not_mem_nil, or_false] at he
  rcases he with rfl | rfl | rfl | rfl <;> trivial

example : Complete 0 [levelBlock 1 false, levelBlock 2 false, .exit 0, .exit 1] := by
  intro k
  simp only [List.mem_cons, List.not_mem_nil, or_false, levelBlock, reduceCtorEq, false_or, ReprEvent.exit.injEq,
    entered]
  omega

example : ¬ Nested 0 [levelBlock 1 false, levelBlock 2 false, .exit 0, .exit 1] := by unfold Nested; decide

/-- None keeps a setting, except for `indent`. -/
example : blockSetting (.int 20) "maxlevel" [("maxlevel", .none), ("indent", .none)] = .int 20 ∧
    blockSetting (.int 2) "indent" [("maxlevel", .none), ("indent", .none)] = .none := by decide

end V8.Props
