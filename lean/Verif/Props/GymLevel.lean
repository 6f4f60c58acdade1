import Verif.Gym.Create
import Verif.Gym.Episodes
import Verif.Gym.Next

/-!
# Properties C77, C78: end of episodes and creation of Gym environments

C77, termination codes:
* `codes_partial`: codes and rewards of every episode. Missing: an environment which terminates by itself in the very step in which the
  limit is reached (`tie_violation`), and environments given as instance or class (`instance_violation`).

C78, creation:
* `created`: the environment has the requested id, limit and threshold, and the registry only grows. `missing`: unknown names are rejected.
* `next_version`: new ids have the next free version number. `zero_first`: version 0 is preferred.
* `reused_partial`: a registered version with the requested limit is used; not so without limit (`reuse_violation`).
-/

namespace Verif.Props.GymLevel

open Verif.Gym

def nm (s : String) : Name := s.toList

/-! ## C77 -/

/-- **C77.** In every episode of an environment with the given limit, the codes and rewards are those expected: 1 with the additional reward if
the environment terminates by itself, 2 at the limit, 0 otherwise. Missing: see above. -/
theorem codes_partial {limit : Option Nat} (hl : limit ≠ some 0) (bonus : Rat) {steps : List (Bool × Rat)}
    (h1 : oneEpisode limit 0 steps = true) (h2 : noTie limit 0 steps = true) :
    episode limit bonus 0 (limited limit 0 steps) = .ok (expected limit bonus 0 steps) :=
  episode_ok (fun n hn => .inl (by
    rcases Nat.eq_zero_or_pos n with e | e
    · exact absurd (hn.trans (by rw [e])) hl
    · exact e)) h1 h2

example : oneEpisode (some 3) 0 [(false, 1), (true, 1)] = true ∧ noTie (some 3) 0 [(false, 1), (true, 1)] = true ∧
    expected (some 3) 5 0 [(false, 1), (true, 1)] = [(0, 1), (1, 1 + 5)] := ⟨by decide, by decide, rfl⟩
example : oneEpisode (some 2) 0 [(false, 1), (false, 1)] = true ∧ noTie (some 2) 0 [(false, 1), (false, 1)] = true ∧
    expected (some 2) 5 0 [(false, 1), (false, 1)] = [(0, 1), (2, 1)] := by decide

/-- Termination in the last possible step counts as abort, without the additional reward. -/
theorem tie_violation : let steps : List (Bool × Rat) := [(false, 1), (true, 1)]
    oneEpisode (some 2) 0 steps = true ∧ expected (some 2) 5 0 steps = [(0, 1), (1, 1 + 5)] ∧
      episode (some 2) 5 0 (limited (some 2) 0 steps) = .ok [(0, 1), (2, 1)] := ⟨by decide, rfl, rfl⟩

/-- For an environment given as instance or class the limit is unknown to the adapter (164, 168), and an abort counts as termination, with the
additional reward. -/
theorem instance_violation : let steps : List (Bool × Rat) := [(false, 1), (false, 1)]
    oneEpisode (some 2) 0 steps = true ∧ noTie (some 2) 0 steps = true ∧ expected (some 2) 5 0 steps = [(0, 1), (2, 1)] ∧
      episode none 5 0 (limited (some 2) 0 steps) = .ok [(0, 1), (1, 1 + 5)] := ⟨by decide, by decide, rfl, rfl⟩

/-! ## C78 -/

/-- **C78.** A registered id: the environment is a version of the same name, with the requested limit and threshold, by default those
registered. The id itself is used if it has these, otherwise a new id is registered; all other ids remain as they are. -/
theorem created_registered {reg : Registry} (hv : Versioned reg) {level : Name} {r : Reg} (hl : look level reg = some r) (steps : Steps)
    (threshold : Option Rat) : ∃ c, createLevel reg level steps threshold = .ok c ∧
      CreatedFrom reg level r (wantedSteps (some r.steps) steps) threshold c := by
  have hf : findLevel reg level steps = .ok (level, steps) := by rw [findLevel.eq_def, hl]; rfl
  obtain ⟨c, h1, h2⟩ := create_made (threshold := threshold) hf hl (versioned_split hv _ (look_mem hl))
  exact ⟨c, h1, from_made h2⟩

/-- **C78.** A name without version: likewise for one of its registered versions, by default without limit. -/
theorem created_version {reg : Registry} (hv : Versioned reg) {level : Name} (hl : look level reg = none)
    (hx : ∃ x ∈ reg, VersionOf level x.1) (steps : Steps) (threshold : Option Rat) :
    ∃ src r c, look src reg = some r ∧ VersionOf level src ∧ createLevel reg level steps threshold = .ok c ∧
      CreatedFrom reg src r (wantedSteps none steps) threshold c := by
  rcases find_ok (steps := steps) (versioned_split hv) hl with ⟨src, steps', h1, h2, h3, h4, -⟩ | ⟨-, h⟩
  · obtain ⟨r, hr⟩ := Option.isSome_iff_exists.mp h2
    obtain ⟨c, g1, g2⟩ := create_made (threshold := threshold) h1 hr (versioned_split hv _ (look_mem hr))
    rw [h4] at g2
    exact ⟨src, r, c, hr, version_iff.mpr h3, g1, from_made g2⟩
  · obtain ⟨x, hx, hb⟩ := hx
    exact absurd (version_iff.mp hb) (h x hx)

/-- **C78.** Other names are rejected. -/
theorem missing {reg : Registry} (hv : Versioned reg) {level : Name} (hl : look level reg = none)
    (hx : ∀ x ∈ reg, ¬ VersionOf level x.1) (steps : Steps) (threshold : Option Rat) :
    createLevel reg level steps threshold = .error .value := by
  rcases find_ok (steps := steps) (versioned_split hv) hl with ⟨src, steps', h1, h2, h3, -⟩ | ⟨h, -⟩
  · obtain ⟨r, hr⟩ := Option.isSome_iff_exists.mp h2
    exact absurd (version_iff.mpr h3) (hx _ (look_mem hr))
  · rw [createLevel, h]

/-- **C78.** A name without version: if a registered version has the requested limit, and no threshold is given, then no new id is registered.
Missing: requests without limit (`reuse_violation`). -/
theorem reused_partial {reg : Registry} (hv : Versioned reg) {level : Name} (hl : look level reg = none) {k : Nat}
    (hx : ∃ n r, VersionOf level n ∧ look n reg = some r ∧ r.steps = some k) :
    ∃ c, createLevel reg level (.limit k) none = .ok c ∧ VersionOf level c.id ∧ (look c.id reg).isSome = true ∧ c.reg = reg ∧
      c.steps = some k := by
  obtain ⟨n, rn, hn1, hn2, hn3⟩ := hx
  rcases find_ok (steps := .limit k) (versioned_split hv) hl with ⟨src, steps', h1, h2, h3, h4, h5⟩ | ⟨-, h⟩
  · obtain ⟨r, hr⟩ := Option.isSome_iff_exists.mp h2
    obtain ⟨c, g1, g2⟩ := create_made (threshold := none) h1 hr (versioned_split hv _ (look_mem hr))
    rw [h4] at g2
    have hs := h5 k rfl ⟨n, version_iff.mp hn1, by rw [hn2, Option.map_some, hn3]⟩
    rw [hr, Option.map_some, Option.some.injEq] at hs
    have he : r = ⟨wantedSteps none (.limit k), wantedThreshold r.threshold none⟩ := by
      obtain ⟨rs, rt⟩ := r
      simp only at hs
      simp [wantedSteps, wantedThreshold, hs]
    obtain ⟨e1, e2⟩ := g2.2.2.2.2.1 he
    exact ⟨c, g1, by rw [e1]; exact version_iff.mpr h3, by rw [e1]; exact h2, e2, g2.1⟩
  · exact absurd (version_iff.mp hn1) (h _ (look_mem hn2))

/-- **C78.** The id which is created for a registered id with a version number is this id, or that with the next version number which is
not registered. -/
theorem next_version {reg : Registry} {base : Name} {n : Nat} {r : Reg} (hl : look (base ++ (dashV ++ digits n)) reg = some r)
    {steps : Steps} {threshold : Option Rat} {c : Created}
    (h : createLevel reg (base ++ (dashV ++ digits n)) steps threshold = .ok c) :
    c.id = base ++ (dashV ++ digits n) ∨ ∃ m, n < m ∧ c.id = base ++ (dashV ++ digits m) ∧
      ∀ k, n < k → k < m → (look (base ++ (dashV ++ digits k)) reg).isSome = true := by
  have hf : findLevel reg (base ++ (dashV ++ digits n)) steps = .ok (base ++ (dashV ++ digits n), steps) := by
    rw [findLevel.eq_def, hl]; rfl
  exact create_next hf h

/-- **C78.** Version 0 is used if it has the requested limit. -/
theorem zero_first {reg : Registry} (hv : Versioned reg) {level : Name} (hl : look level reg = none) {r : Reg}
    (hz : look (level ++ nm "-v0") reg = some r) {k : Nat} (hk : r.steps = some k) (threshold : Option Rat) :
    ∃ c, createLevel reg level (.limit k) threshold = .ok c ∧ CreatedFrom reg (level ++ nm "-v0") r (some k) threshold c := by
  obtain ⟨c, h1, h2⟩ := create_made (threshold := threshold) (find_zero hl hz hk) hz (versioned_split hv _ (look_mem hz))
  exact ⟨c, h1, from_made h2⟩

def exampleRegistry : Registry := [(nm "Cart-v0", ⟨some 200, some 195⟩), (nm "Cart-v1", ⟨some 500, some 475⟩), (nm "Free-v0", ⟨none, none⟩)]

example : Versioned exampleRegistry := by
  intro x hx
  simp only [exampleRegistry, List.mem_cons, List.not_mem_nil, or_false] at hx
  rcases hx with rfl | rfl | rfl
  · exact ⟨_, version_example (nm "Cart") '0' (by decide)⟩
  · exact ⟨_, version_example (nm "Cart") '1' (by decide)⟩
  · exact ⟨_, version_example (nm "Free") '0' (by decide)⟩
example : (createLevel exampleRegistry (nm "Cart") (.limit 500) none).toOption.map (·.id) = some (nm "Cart-v1") := by decide
example : (createLevel exampleRegistry (nm "Cart-v0") .unset none).toOption = some ⟨nm "Cart-v0", some 200, exampleRegistry⟩ := by decide
example : (createLevel exampleRegistry (nm "Cart") .unset none).toOption.map (fun c => (c.id, c.steps)) = some (nm "Cart-v2", none) := by decide
example : (createLevel exampleRegistry (nm "Other") .unset none).toOption = none := by decide

example : (createLevel exampleRegistry (nm "Cart-v0") (.limit 7) none).toOption.map (·.id) = some (nm "Cart-v2") := by decide
example : look (nm "Cart" ++ nm "-v0") exampleRegistry = some ⟨some 200, some 195⟩ := by decide

/-- A registered version without limit is not used if a version with limit comes first: `False != None` (85). -/
theorem reuse_violation :
    let reg : Registry := [(nm "A-v0", ⟨some 5, none⟩), (nm "A-v1", ⟨none, none⟩)]
    (createLevel reg (nm "A") .off none).toOption.map (fun c => (c.id, c.reg.length)) = some (nm "A-v2", 3) := by decide

end Verif.Props.GymLevel
