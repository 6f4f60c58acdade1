import Verif.Env.CreateLemmas

/-!
# Property C44: `Environment.create`
-/

namespace Verif.Props.Create

open Verif.Utils.Py Verif.Env.Create

/-- For every specification (object, class, dictionary, file, keyword, module, gym) at every nesting: an explicitly given
time limit is that of the returned environment, reward shaping too unless an existing wrapper is returned, and every
setting among the keyword arguments is among the arguments of the constructor unless an existing object is wrapped.
Missing: reward shaping for existing wrappers, keyword arguments for existing objects (`wrapper_shaping_violation`,
`object_kwargs_violation`). -/
theorem create_honours_arguments_partial (w : World) (hw : w.Ok) (fuel : Nat) (env limit shaping : V) (kwargs : Kw)
    (he : Uniq env) (hk : UniqE kwargs) (e : Env) (h : create w fuel env limit shaping kwargs = .env e) :
    Honours limit shaping kwargs e := create_honours w hw fuel env limit shaping kwargs he hk e h

/-- Every setting of a specification dictionary reaches the constructor (or an equal explicit argument does).
Missing: as in `create_honours_arguments_partial`. -/
theorem create_honours_specification_partial (w : World) (hw : w.Ok) (fuel : Nat) (spec : Kw) (limit shaping : V)
    (kwargs : Kw) (he : UniqE spec) (hk : UniqE kwargs) (e : Env)
    (h : create w (fuel + 1) (.dct spec) limit shaping kwargs = .env e) (c : Nat) (kw : Kw) (hb : e.source = .built c kw)
    (k : String) (p : List String) (v : V) (hr : k ∉ reserved) (hv : v.isDict = false)
    (hs : (Val.dct spec).at (k :: p) = some v) :
    ∃ u, (Val.dct kw).at (k :: p) = some u ∧ (u = v ∨ Agree u v) := by
  unfold create at h
  split at h
  · simp at h
  · simp only at h
    split at h
    · simp at h
    · rename_i e' l s kw' hun
      obtain ⟨u1, u2, _, _, _, u6⟩ := unpack_keeps spec he limit shaping kwargs hk e' l s kw' hun
      obtain ⟨u, hu, hor⟩ := u6 k p v hr hv hs
      have hud : u.isDict = false := by
        rcases hor with rfl | ⟨h, _⟩
        · exact hv
        · exact h
      have hh := create_honours w hw fuel e' l s kw' u1 u2 e h
      rcases hh.2.2 with q | ⟨c', kw'', q1, q2⟩ | ⟨i, q⟩
      · have := q k p u hr hud hu
        simp [Val.at, Ents.find] at this
      · rw [hb] at q1
        cases q1
        refine ⟨u, q2 k p u hr hud hu, ?_⟩
        rcases hor with h | ⟨_, h⟩
        · exact .inl h
        · exact .inr h
      · rw [hb] at q; cases q

/-- A time limit or reward shaping given both explicitly and in the specification dictionary never gets lost: the call
raises, whatever else is specified. (Raising at all contradicts the intended override, see `override_violation`.) -/
theorem given_twice_raises (w : World) (fuel : Nat) (spec : Kw) (hu : UniqE spec) (limit shaping : V) (kwargs : Kw)
    (hr : remoteKeys.any (has · kwargs) = false)
    (h : (pyEq limit none' = false ∧ has "max_episode_timesteps" spec = true) ∨
      (pyEq shaping none' = false ∧ has "reward_shaping" spec = true)) :
    create w fuel (.dct spec) limit shaping kwargs = .error := by
  cases fuel with
  | zero => rfl
  | succ fuel =>
    unfold create
    rw [hr]
    simp only [Bool.false_eq_true, if_false, unpack_twice spec hu limit shaping kwargs h]

/-- A time limit given only in the specification dictionary is that of the returned environment. -/
theorem specification_limit_honoured (w : World) (hw : w.Ok) (fuel : Nat) (spec : Kw) (shaping : V) (kwargs : Kw)
    (hs : UniqE spec) (hk : UniqE kwargs) (hn : kwargs.find "max_episode_timesteps" = none) (v : V)
    (hv : spec.find "max_episode_timesteps" = some v) (hv' : pyEq v none' = false) (e : Env)
    (h : create w (fuel + 1) (.dct spec) none' shaping kwargs = .env e) :
    e.limit = v ∨ pyEq v e.limit = true := by
  unfold create at h
  split at h
  · simp at h
  · simp only at h
    split at h
    · simp at h
    · rename_i e' l s kw' hun
      obtain ⟨u1, u2, _⟩ := unpack_keeps spec hs none' shaping kwargs hk e' l s kw' hun
      have hl : l = v := by
        have h0 : pyEq none' none' = true := rfl
        simp only [unpack, h0, if_true] at hun
        split at hun
        · simp at hun
        · rename_i m hm
          have hf : m.find "max_episode_timesteps" = some v := by
            rw [merge_find kwargs spec m hs hm, hn, hv]; rfl
          repeat' split at hun
          all_goals first | (simp at hun; done) | skip
          all_goals
            simp only [Option.some.injEq, Prod.mk.injEq] at hun
            rw [← hun.2.1, find_del _ _ _ (by decide), find_del _ _ _ (by decide), hf]
            rfl
      subst hl
      exact (create_honours w hw fuel e' _ s kw' u1 u2 e h).1 hv'

/-- One class, known as `gym`; no files or modules. -/
private def w0 : World where
  file _ := none
  registry n := if n = "gym" then some (.atom (.cls 7)) else none
  library _ := none
  construct _ _ := true

private def lim (n : Int) : V := .atom (.num n)

example : w0.Ok ∧ (∃ e, create w0 5 (.dct (.cons "environment" (.atom (.str "CartPole")) (.cons "x" (lim 1) .nil)))
    (lim 100) none' (.cons "visualize" (lim 1) .nil) = .env e ∧ ∃ c kw, e.source = .built c kw) := by
  refine ⟨⟨fun _ _ h => by simp [w0] at h, fun n v h => ?_, fun _ _ h => by simp [w0] at h⟩, _, rfl, _, _, rfl⟩
  simp only [w0] at h
  split at h
  · cases h; trivial
  · cases h

example : remoteKeys.any (has · (.nil : Kw)) = false ∧ pyEq (lim 3) none' = false ∧
    has "max_episode_timesteps" (.cons "max_episode_timesteps" (lim 5) .nil) = true := by decide

example : (∃ e, create w0 5 (.dct (.cons "environment" (.atom (.str "gym")) (.cons "max_episode_timesteps" (lim 5) .nil)))
    none' none' .nil = .env e) ∧ pyEq (lim 5) none' = false := ⟨⟨_, rfl⟩, rfl⟩

/-- Violation: reward shaping given together with an existing wrapper is silently dropped (lines 131-145). -/
theorem wrapper_shaping_violation (w : World) (fuel i : Nat) (l : Option Int) (shaping : V) :
    create w (fuel + 1) (.atom (.wrapper i l)) none' shaping .nil = .env ⟨.wrapped i l, limitVal l, none'⟩ := by
  simp [create, remoteKeys, has, Ents.find, pyEq, none', Ents.length]

/-- Violation: keyword arguments given together with an environment object are silently dropped (lines 153-157). -/
theorem object_kwargs_violation (w : World) (fuel i : Nat) (v : V) :
    create w (fuel + 1) (.atom (.inst i)) none' none' (.cons "visualize" v .nil) = .env ⟨.given i, none', none'⟩ := by
  simp [create, remoteKeys, has, Ents.find]

/-- Violation: an explicit time limit does not override the one of the specification but raises. -/
theorem override_violation (w : World) (fuel : Nat) (c : Nat) (n m : Int) :
    create w (fuel + 1) (.dct (.cons "environment" (.atom (.cls c)) (.cons "max_episode_timesteps" (lim m) .nil)))
      (lim n) none' .nil = .error := by
  simp [create, remoteKeys, has, Ents.find, unpack, merge, Ents.put, del, dropIf, pyEq, none', lim]

/-- Violation: with both `environment` and `type` in a specification, `type` is silently dropped (line 170). -/
theorem type_dropped_violation (w : World) (fuel c : Nat) (v : V) (hc : w.construct c .nil = true) :
    create w (fuel + 2) (.dct (.cons "environment" (.atom (.cls c)) (.cons "type" v .nil))) none' none' .nil =
      .env ⟨.built c .nil, none', none'⟩ := by
  simp [create, remoteKeys, has, Ents.find, unpack, merge, Ents.put, del, dropIf, pyEq, none', hc]

example : w0.construct 7 .nil = true := rfl

end Verif.Props.Create
