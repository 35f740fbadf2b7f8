import Verif.Props.Unique

/-
Property C69 for runs that merge and multiply rows.
-/
namespace Subsetter.Props
open Subsetter Spec

/-- A destination with users and orders. -/
def rmDst : Dict Str TableMeta := [(str! "m.o", { uxO with schema := str! "m", foreignKeys := [] }), (str! "m.u", { wuU with schema := str! "m" })]
def rmSetting : Setting Int := { wuSetting uxUsers rmDst with world := withRandom exWorldV qxRng }
/-- Mail addresses are replaced by numbers, users are doubled and merged with those there. -/
def rmC : RunConfig := { remap := dxRemap, merge := true, mult := { multiplier := 2 }, filters := [(str! "s.u", [.simple (.randomInt [str! "mail"] 4 9)])] }
def rmBefore (k : Key) : List Row := if k = (str! "m", str! "u") then [[(str! "id", .int 20), (str! "mail", .int 5)]] else []

theorem rm_names : (match plan dxEq rmSetting.srcDb (uxCfg { amount := some 2 }) with | .ok p => dkeys p.queries | .error _ => []) = [str! "s.o", str! "s.u"] := by
  decide +kernel

/-- `c69_any_time` on an example: merged and doubled users never have another number as mail address. -/
theorem rm_any_time : ∃ p, plan dxEq rmSetting.srcDb (uxCfg { amount := some 2 }) = .ok p ∧
    ∀ X ∈ (sample rmC rmSetting p rmBefore 0).hist, ∀ r ∈ X (str! "m", str! "u"),
      Produces (str! "mail") (.randomInt [str! "mail"] 4 9) (r.get (str! "mail")) := by
  have hn := rm_names
  cases h : plan dxEq rmSetting.srcDb (uxCfg { amount := some 2 }) with
  | error e => rw [h] at hn; cases hn
  | ok p =>
    rw [h] at hn
    replace hn : dkeys p.queries = _ := hn
    have hok : RunOK rmC rmSetting p := by
      refine ⟨rxDb_ok (by decide) (by decide), rxDb_ok (by decide) (by decide), fun a b h => ?_, fun n t h => ?_,
        fun _ _ _ => by simp [rmSetting, wuSetting, rxSetting, dxEq], by rw [hn]; decide, by decide⟩
      · obtain ⟨n, t, fk, h1, -, h2, -⟩ := h
        have : ∀ e ∈ rmDst, e.2.foreignKeys = [] := by decide
        rw [this (n, t) h1] at h2; cases h2
      · have : ∀ e ∈ rmSetting.srcDb, e.2.columns.Nodup := by decide
        exact this (n, t) h
    have hsch : (sample rmC rmSetting p rmBefore 0).schema = rmDst := schema_kept rfl
    have hm : str! "s.u" ∈ dkeys p.queries := by rw [hn]; decide
    have hd : DestOf rmC.remap (str! "s.u") (str! "m", str! "u") := ⟨str! "s", str! "u", by decide, by decide⟩
    have hr : Reached rmC rmSetting p (str! "m", str! "u") :=
      ⟨_, hm, _, hd, .inr ⟨(str! "m", str! "u"), ⟨_, _, List.mem_cons_of_mem _ List.mem_cons_self, rfl, _, List.mem_singleton_self _, by decide⟩, .refl⟩⟩
    refine ⟨p, rfl, c69_any_time (W := exWorldV) (R := qxRng) (n := str! "s.u") (k := (str! "s", str! "u")) (t := wuU) (td := { wuU with schema := str! "m" })
      (pre := []) (post := []) hok rfl rfl ⟨hm, by decide, by decide, hd, hr, by rw [hsch]; decide⟩ rfl (by decide)
      (fun h => h) (fun _ h => nomatch h) (by decide) (.inr ⟨fun _ => ⟨rfl, by decide, by decide, fun cs h => nomatch h⟩, fun _ => ⟨rfl, by decide, by decide⟩⟩) ?_⟩
    intro r hr
    have : ∀ r ∈ rmBefore (str! "m", str! "u"), r.get (str! "mail") = .int 5 := by decide
    rw [this r hr]
    exact ⟨5, rfl, by decide, by decide⟩

/-- Users after a run. -/
def rmUsers (C : RunConfig) : Option (Option RunErr × List Row) :=
  match plan dxEq rmSetting.srcDb (uxCfg { amount := some 2 }) with
  | .ok p => let R := sample C rmSetting p rmBefore 0; some (R.err, R.final (str! "m", str! "u"))
  | .error _ => none

theorem rm_run : rmUsers rmC = some (none, [[(str! "id", .int 20), (str! "mail", .int 5)],
    [(str! "id", .int 23), (str! "mail", .int 4)], [(str! "id", .int 24), (str! "mail", .int 5)],
    [(str! "id", .int 25), (str! "mail", .int 6)], [(str! "id", .int 26), (str! "mail", .int 7)]]) := by
  decide +kernel

/-- C69 fails for columns that are multiplied: the range is that of the numbers before. -/
theorem c69_multiplied : rmUsers { rmC with merge := false, truncate := true, filters := [(str! "s.u", [.simple (.randomInt [str! "id"] 4 9)])] } =
    some (none, [[(str! "id", .int 8), (str! "mail", .str (str! "a"))], [(str! "id", .int 11), (str! "mail", .str (str! "a"))],
      [(str! "id", .int 12), (str! "mail", .str (str! "b"))], [(str! "id", .int 15), (str! "mail", .str (str! "b"))]]) := by
  decide +kernel

/-- It fails for columns that are shifted when merging. -/
theorem c69_shifted : rxShow (sample { qxCfg 28 30 with truncate := false, merge := true } qxSetting exPlan rxBefore 0) =
    (none, [[[(str! "id", .int 5)], [(str! "id", .int 7)]],
      [[(str! "id", .int 9), (str! "uid", .int 5)], [(str! "id", .int 17), (str! "uid", .int 34)]], [[(str! "oid", .int 9)]]]) := by
  decide +kernel

end Subsetter.Props
