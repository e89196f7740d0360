import Verif.Model.Nulls

/-!
# C251: functions of NULL
-/

namespace Verif.Nulls

open Go Verif.Val Verif.Registry

/-- The functions and operators that the documentation of GoogleSQL defines to be NULL if an argument is NULL. -/
def strict : List Name := [
  ['a','d','d'], ['s','u','b','t','r','a','c','t'], ['m','u','l','t','i','p','l','y'],
  ['d','i','v','i','d','e'], ['e','q','u','a','l'], ['n','o','t','_','e','q','u','a','l'],
  ['g','r','e','a','t','e','r'], ['g','r','e','a','t','e','r','_','o','r','_','e','q','u','a','l'], ['l','e','s','s'],
  ['l','e','s','s','_','o','r','_','e','q','u','a','l'], ['b','i','t','w','i','s','e','_','n','o','t'], ['b','i','t','w','i','s','e','_','l','e','f','t','_','s','h','i','f','t'],
  ['b','i','t','w','i','s','e','_','r','i','g','h','t','_','s','h','i','f','t'], ['b','i','t','w','i','s','e','_','a','n','d'], ['b','i','t','w','i','s','e','_','o','r'],
  ['b','i','t','w','i','s','e','_','x','o','r'], ['g','e','t','_','s','t','r','u','c','t','_','f','i','e','l','d'], ['g','e','t','_','j','s','o','n','_','f','i','e','l','d'],
  ['s','u','b','s','c','r','i','p','t'], ['a','r','r','a','y','_','a','t','_','o','f','f','s','e','t'], ['a','r','r','a','y','_','a','t','_','o','r','d','i','n','a','l'],
  ['s','a','f','e','_','a','r','r','a','y','_','a','t','_','o','f','f','s','e','t'], ['s','a','f','e','_','a','r','r','a','y','_','a','t','_','o','r','d','i','n','a','l'], ['e','x','t','r','a','c','t'],
  ['e','x','t','r','a','c','t','_','d','a','t','e'], ['d','a','t','e'], ['d','a','t','e','_','a','d','d'],
  ['d','a','t','e','_','s','u','b'], ['d','a','t','e','_','d','i','f','f'], ['d','a','t','e','_','t','r','u','n','c'],
  ['d','a','t','e','_','f','r','o','m','_','u','n','i','x','_','d','a','t','e'], ['f','o','r','m','a','t','_','d','a','t','e'], ['l','a','s','t','_','d','a','y'],
  ['p','a','r','s','e','_','d','a','t','e'], ['u','n','i','x','_','d','a','t','e'], ['d','a','t','e','t','i','m','e'],
  ['d','a','t','e','t','i','m','e','_','a','d','d'], ['d','a','t','e','t','i','m','e','_','s','u','b'], ['d','a','t','e','t','i','m','e','_','d','i','f','f'],
  ['d','a','t','e','t','i','m','e','_','t','r','u','n','c'], ['f','o','r','m','a','t','_','d','a','t','e','t','i','m','e'], ['p','a','r','s','e','_','d','a','t','e','t','i','m','e'],
  ['t','i','m','e'], ['t','i','m','e','_','a','d','d'], ['t','i','m','e','_','s','u','b'],
  ['t','i','m','e','_','d','i','f','f'], ['t','i','m','e','_','t','r','u','n','c'], ['f','o','r','m','a','t','_','t','i','m','e'],
  ['p','a','r','s','e','_','t','i','m','e'], ['s','t','r','i','n','g'], ['t','i','m','e','s','t','a','m','p'],
  ['t','i','m','e','s','t','a','m','p','_','a','d','d'], ['t','i','m','e','s','t','a','m','p','_','s','u','b'], ['t','i','m','e','s','t','a','m','p','_','d','i','f','f'],
  ['t','i','m','e','s','t','a','m','p','_','t','r','u','n','c'], ['f','o','r','m','a','t','_','t','i','m','e','s','t','a','m','p'], ['p','a','r','s','e','_','t','i','m','e','s','t','a','m','p'],
  ['t','i','m','e','s','t','a','m','p','_','s','e','c','o','n','d','s'], ['t','i','m','e','s','t','a','m','p','_','m','i','l','l','i','s'], ['t','i','m','e','s','t','a','m','p','_','m','i','c','r','o','s'],
  ['u','n','i','x','_','s','e','c','o','n','d','s'], ['u','n','i','x','_','m','i','l','l','i','s'], ['u','n','i','x','_','m','i','c','r','o','s'],
  ['l','i','k','e'], ['n','o','t'], ['l','e','n','g','t','h'],
  ['i','n','t','e','r','v','a','l'], ['m','a','k','e','_','i','n','t','e','r','v','a','l'], ['j','u','s','t','i','f','y','_','d','a','y','s'],
  ['j','u','s','t','i','f','y','_','h','o','u','r','s'], ['j','u','s','t','i','f','y','_','i','n','t','e','r','v','a','l'], ['p','a','r','s','e','_','n','u','m','e','r','i','c'],
  ['p','a','r','s','e','_','b','i','g','n','u','m','e','r','i','c'], ['f','a','r','m','_','f','i','n','g','e','r','p','r','i','n','t'], ['m','d','5'],
  ['s','h','a','1'], ['s','h','a','2','5','6'], ['s','h','a','5','1','2'],
  ['a','s','c','i','i'], ['b','y','t','e','_','l','e','n','g','t','h'], ['c','h','a','r','_','l','e','n','g','t','h'],
  ['c','h','r'], ['c','o','d','e','_','p','o','i','n','t','s','_','t','o','_','b','y','t','e','s'], ['c','o','d','e','_','p','o','i','n','t','s','_','t','o','_','s','t','r','i','n','g'],
  ['c','o','n','c','a','t'], ['e','n','d','s','_','w','i','t','h'], ['f','r','o','m','_','b','a','s','e','3','2'],
  ['f','r','o','m','_','b','a','s','e','6','4'], ['f','r','o','m','_','h','e','x'], ['i','n','i','t','c','a','p'],
  ['i','n','s','t','r'], ['l','e','f','t'], ['l','p','a','d'],
  ['l','o','w','e','r'], ['l','t','r','i','m'], ['n','o','r','m','a','l','i','z','e'],
  ['n','o','r','m','a','l','i','z','e','_','a','n','d','_','c','a','s','e','f','o','l','d'], ['r','e','g','e','x','p','_','c','o','n','t','a','i','n','s'], ['r','e','g','e','x','p','_','e','x','t','r','a','c','t'],
  ['r','e','g','e','x','p','_','e','x','t','r','a','c','t','_','a','l','l'], ['r','e','g','e','x','p','_','i','n','s','t','r'], ['r','e','g','e','x','p','_','r','e','p','l','a','c','e'],
  ['r','e','p','l','a','c','e'], ['r','e','p','e','a','t'], ['r','e','v','e','r','s','e'],
  ['r','i','g','h','t'], ['r','p','a','d'], ['r','t','r','i','m'],
  ['s','a','f','e','_','c','o','n','v','e','r','t','_','b','y','t','e','s','_','t','o','_','s','t','r','i','n','g'], ['s','o','u','n','d','e','x'], ['s','p','l','i','t'],
  ['s','t','a','r','t','s','_','w','i','t','h'], ['s','t','r','p','o','s'], ['s','u','b','s','t','r'],
  ['t','o','_','b','a','s','e','3','2'], ['t','o','_','b','a','s','e','6','4'], ['t','o','_','c','o','d','e','_','p','o','i','n','t','s'],
  ['t','o','_','h','e','x'], ['t','r','a','n','s','l','a','t','e'], ['t','r','i','m'],
  ['u','n','i','c','o','d','e'], ['u','p','p','e','r'], ['j','s','o','n','_','e','x','t','r','a','c','t'],
  ['j','s','o','n','_','e','x','t','r','a','c','t','_','s','c','a','l','a','r'], ['j','s','o','n','_','e','x','t','r','a','c','t','_','a','r','r','a','y'], ['j','s','o','n','_','e','x','t','r','a','c','t','_','s','t','r','i','n','g','_','a','r','r','a','y'],
  ['j','s','o','n','_','q','u','e','r','y'], ['j','s','o','n','_','v','a','l','u','e'], ['j','s','o','n','_','q','u','e','r','y','_','a','r','r','a','y'],
  ['j','s','o','n','_','v','a','l','u','e','_','a','r','r','a','y'], ['p','a','r','s','e','_','j','s','o','n'], ['b','o','o','l'],
  ['i','n','t','6','4'], ['j','s','o','n','_','t','y','p','e'], ['a','b','s'],
  ['s','i','g','n'], ['i','s','_','i','n','f'], ['i','s','_','n','a','n'],
  ['i','e','e','e','_','d','i','v','i','d','e'], ['s','q','r','t'], ['p','o','w'],
  ['p','o','w','e','r'], ['e','x','p'], ['l','n'],
  ['l','o','g'], ['l','o','g','1','0'], ['g','r','e','a','t','e','s','t'],
  ['l','e','a','s','t'], ['d','i','v'], ['s','a','f','e','_','d','i','v','i','d','e'],
  ['s','a','f','e','_','m','u','l','t','i','p','l','y'], ['s','a','f','e','_','n','e','g','a','t','e'], ['s','a','f','e','_','a','d','d'],
  ['s','a','f','e','_','s','u','b','t','r','a','c','t'], ['m','o','d'], ['r','o','u','n','d'],
  ['t','r','u','n','c'], ['c','e','i','l'], ['c','e','i','l','i','n','g'],
  ['f','l','o','o','r'], ['c','o','s'], ['c','o','s','h'],
  ['a','c','o','s'], ['a','c','o','s','h'], ['s','i','n'],
  ['s','i','n','h'], ['a','s','i','n'], ['a','s','i','n','h'],
  ['t','a','n'], ['t','a','n','h'], ['a','t','a','n'],
  ['a','t','a','n','h'], ['a','t','a','n','2'], ['r','a','n','g','e','_','b','u','c','k','e','t'],
  ['a','r','r','a','y','_','c','o','n','c','a','t'], ['a','r','r','a','y','_','l','e','n','g','t','h'], ['a','r','r','a','y','_','t','o','_','s','t','r','i','n','g'],
  ['g','e','n','e','r','a','t','e','_','a','r','r','a','y'], ['g','e','n','e','r','a','t','e','_','d','a','t','e','_','a','r','r','a','y'], ['g','e','n','e','r','a','t','e','_','t','i','m','e','s','t','a','m','p','_','a','r','r','a','y'],
  ['a','r','r','a','y','_','r','e','v','e','r','s','e'], ['b','i','t','_','c','o','u','n','t'], ['n','e','t','_','h','o','s','t'],
  ['n','e','t','_','i','p','_','f','r','o','m','_','s','t','r','i','n','g'], ['n','e','t','_','i','p','_','n','e','t','_','m','a','s','k'], ['n','e','t','_','i','p','_','t','o','_','s','t','r','i','n','g'],
  ['n','e','t','_','i','p','_','t','r','u','n','c'], ['n','e','t','_','i','p','v','4','_','f','r','o','m','_','i','n','t','6','4'], ['n','e','t','_','i','p','v','4','_','t','o','_','i','n','t','6','4'],
  ['n','e','t','_','p','u','b','l','i','c','_','s','u','f','f','i','x'], ['n','e','t','_','r','e','g','_','d','o','m','a','i','n'], ['n','e','t','_','s','a','f','e','_','i','p','_','f','r','o','m','_','s','t','r','i','n','g']
]

/-- Full C251: functions that are NULL for NULL are. -/
def C251_full : Prop :=
  ∀ n ∈ strict, ∀ b, (n, b) ∈ normalFuncs → ∀ (body : List Val → Res Val) (args : List Val),
    accepts b args.length → .null ∈ args → call b body args = .ok .null

/-- Those that are not, a number of NULLs and what they give for as many. -/
def wrong : List (Name × Nat × Res Val) := [
  (['l','i','k','e'], 2, .ok (.bool false)), (['s','p','l','i','t'], 2, .ok (.arr [])),
  (['t','o','_','c','o','d','e','_','p','o','i','n','t','s'], 1, .ok (.arr [])), (['r','o','u','n','d'], 2, .panic),
  (['i','n','t','e','r','v','a','l'], 2, .panic), (['m','a','k','e','_','i','n','t','e','r','v','a','l'], 6, .panic),
  (['j','u','s','t','i','f','y','_','d','a','y','s'], 1, .err), (['j','u','s','t','i','f','y','_','h','o','u','r','s'], 1, .err),
  (['j','u','s','t','i','f','y','_','i','n','t','e','r','v','a','l'], 1, .err), (['p','a','r','s','e','_','n','u','m','e','r','i','c'], 1, .panic),
  (['p','a','r','s','e','_','b','i','g','n','u','m','e','r','i','c'], 1, .panic), (['j','s','o','n','_','t','y','p','e'], 1, .err),
  (['a','r','r','a','y','_','c','o','n','c','a','t'], 1, .panic), (['a','r','r','a','y','_','l','e','n','g','t','h'], 1, .panic),
  (['a','r','r','a','y','_','t','o','_','s','t','r','i','n','g'], 2, .panic), (['a','r','r','a','y','_','r','e','v','e','r','s','e'], 1, .panic),
  (['g','e','n','e','r','a','t','e','_','d','a','t','e','_','a','r','r','a','y'], 3, .panic), (['g','e','n','e','r','a','t','e','_','t','i','m','e','s','t','a','m','p','_','a','r','r','a','y'], 4, .panic),
  (['n','e','t','_','i','p','_','t','o','_','s','t','r','i','n','g'], 1, .panic), (['n','e','t','_','i','p','_','t','r','u','n','c'], 2, .panic),
  (['n','e','t','_','i','p','v','4','_','f','r','o','m','_','i','n','t','6','4'], 1, .panic), (['n','e','t','_','i','p','v','4','_','t','o','_','i','n','t','6','4'], 1, .panic),
  (['n','e','t','_','p','u','b','l','i','c','_','s','u','f','f','i','x'], 1, .panic), (['n','e','t','_','r','e','g','_','d','o','m','a','i','n'], 1, .panic)
]

/-- The checks give NULL at once. -/
def good : Count → List Step → Bool
  | _, .any (.ok .null) :: _ => true
  | .of [1], .at 0 (.ok .null) :: _ => true
  | _, _ => false

theorem existsNull_of_mem {args : List Val} (h : Val.null ∈ args) : Logic.existsNull args = true := by
  induction args with
  | nil => simp at h
  | cons v vs ih =>
    simp only [List.mem_cons] at h
    rcases h with rfl | h
    · rfl
    · simp [Logic.existsNull, ih h]

theorem run_good {c : Count} {ss : List Step} (body : List Val → Res Val) {args : List Val} (hg : good c ss = true) (hc : c.ok args.length = true)
    (h : Val.null ∈ args) : run body args ss = .ok .null := by
  unfold good at hg
  split at hg
  · simp [run, existsNull_of_mem h]
  · simp only [Count.ok, List.mem_singleton, decide_eq_true_eq] at hc
    match args, hc, h with
    | [v], _, h =>
      simp only [List.mem_singleton] at h
      subst h
      rfl
  · cases hg

theorem call_good {b : Name} {f : Bind} (hf : binds.find? (·.name = b) = some f) (hg : good f.count f.steps = true) (body : List Val → Res Val)
    (args : List Val) (ha : accepts b args.length = true) (h : Val.null ∈ args) : call b body args = .ok .null := by
  unfold accepts at ha
  rw [hf] at ha
  unfold call
  rw [hf]
  simp only [if_pos ha]
  exact run_good body hg ha h

/-- The bind function of a name gives NULL at once. -/
def goodB (b : Name) : Bool := match binds.find? (·.name = b) with
  | some f => good f.count f.steps
  | none => false

theorem table_good : ∀ e ∈ normalFuncs, e.1 ∈ strict → e.1 ∉ wrong.map (·.1) → goodB e.2 = true := by decide +kernel

/-- **C251** all of them but those in `wrong` are NULL for NULL, whatever the function computes and wherever the NULL is. -/
theorem C251_partial (n : Name) (hn : n ∈ strict) (hw : n ∉ wrong.map (·.1)) (b : Name) (hb : (n, b) ∈ normalFuncs) (body : List Val → Res Val)
    (args : List Val) (ha : accepts b args.length) (h : .null ∈ args) : call b body args = .ok .null := by
  have hg := table_good (n, b) hb hn hw
  unfold goodB at hg
  split at hg
  · exact call_good ‹_› hg body args ha h
  · cases hg

/-- The result of the checks, if they have one. -/
def fires (args : List Val) : List Step → Option (Res Val)
  | [] => none
  | .any r :: ss => if Logic.existsNull args then some r else fires args ss
  | .at i r :: ss => if nullAt args i then some r else fires args ss

theorem run_fires {args : List Val} {r : Res Val} (body : List Val → Res Val) : ∀ {ss : List Step}, fires args ss = some r → run body args ss = r
  | [], h => by cases h
  | .any _ :: ss, h => by
    unfold fires at h
    unfold run
    split at h
    · rename_i hc; rw [if_pos hc]; exact Option.some.inj h
    · rename_i hc; rw [if_neg hc]; exact run_fires body h
  | .at _ _ :: ss, h => by
    unfold fires at h
    unfold run
    split at h
    · rename_i hc; rw [if_pos hc]; exact Option.some.inj h
    · rename_i hc; rw [if_neg hc]; exact run_fires body h

def same : Res Val → Res Val → Bool
  | .panic, .panic => true
  | .err, .err => true
  | .ok (.bool a), .ok (.bool b) => a == b
  | .ok (.arr []), .ok (.arr []) => true
  | _, _ => false

theorem same_eq {a b : Res Val} (h : same a b = true) : a = b := by
  unfold same at h
  split at h <;> simp_all

theorem same_ne {a b : Res Val} (h : same a b = true) : a ≠ .ok .null := by
  intro e
  subst e
  unfold same at h
  split at h <;> simp_all

def wrongB (b : Name) (k : Nat) (r : Res Val) : Bool := match binds.find? (·.name = b) with
  | some f => f.count.ok k && (match fires (List.replicate k .null) f.steps with
    | some x => same x r
    | none => false)
  | none => false

theorem table_wrong : ∀ w ∈ wrong, ∀ e ∈ normalFuncs, e.1 = w.1 → wrongB e.2 w.2.1 w.2.2 = true := by decide +kernel

/-- **C251** what the others give for NULLs: FALSE, an empty array, an error or a panic. -/
theorem C251_wrong (n : Name) (k : Nat) (r : Res Val) (hw : (n, k, r) ∈ wrong) (b : Name) (hb : (n, b) ∈ normalFuncs) (body : List Val → Res Val) :
    accepts b (List.replicate k Val.null).length ∧ call b body (List.replicate k .null) = r ∧ r ≠ .ok .null := by
  have h := table_wrong (n, k, r) hw (n, b) hb rfl
  simp only [wrongB] at h
  split at h
  · rename_i f hf
    simp only [Bool.and_eq_true] at h
    obtain ⟨h1, h2⟩ := h
    split at h2
    · rename_i x hx
      simp only [accepts, call, hf, List.length_replicate, h1, if_true, true_and]
      rw [run_fires body hx]
      exact ⟨same_eq h2, same_eq h2 ▸ same_ne h2⟩
    · cases h2
  · cases h

/-- **C251** a function is NULL for NULL if and only if it is not in `wrong`. -/
theorem C251_iff (n : Name) (hn : n ∈ strict) (b : Name) (hb : (n, b) ∈ normalFuncs) :
    (∀ (body : List Val → Res Val) (args : List Val), accepts b args.length → .null ∈ args → call b body args = .ok .null) ↔
      n ∉ wrong.map (·.1) := by
  refine ⟨fun h hw => ?_, fun hw => C251_partial n hn hw b hb⟩
  simp only [List.mem_map] at hw
  obtain ⟨⟨n', k, r⟩, hw, rfl⟩ := hw
  obtain ⟨h1, h2, h3⟩ := C251_wrong n' k r hw b hb (fun _ => .err)
  refine h3 (h2 ▸ h (fun _ => .err) _ h1 ?_)
  cases k with
  | zero =>
    have : ∀ w ∈ wrong, w.2.1 ≠ 0 := by decide +kernel
    exact absurd rfl (this _ hw)
  | succ k => simp [List.replicate_succ]

/-- All functions of `wrong` are among those that should be NULL, and all those that should be are registered. -/
theorem C251_tables : (∀ w ∈ wrong, w.1 ∈ strict) ∧ ∀ n ∈ strict, n ∈ normalFuncs.map (·.1) := by decide +kernel

theorem C251_full_false : ¬ C251_full := by
  intro h
  have := h ['a','r','r','a','y','_','l','e','n','g','t','h'] (by decide +kernel) ['b','i','n','d','A','r','r','a','y','L','e','n','g','t','h'] (by decide +kernel) (fun _ => .ok (.int 0)) [.null] rfl (by simp)
  exact absurd (this.symm.trans rfl : (.ok .null : Res Val) = .panic) (by simp)

/-- SUBSTR('abc', NULL) is NULL. -/
example (body : List Val → Res Val) : call ['b','i','n','d','S','u','b','s','t','r'] body [.str ['a', 'b', 'c'], .null] = .ok .null :=
  C251_partial ['s','u','b','s','t','r'] (by decide +kernel) (by decide +kernel) _ (by decide +kernel) body _ rfl (by simp)

theorem run_else (body : List Val → Res Val) {args : List Val} (h : Val.null ∉ args) : ∀ ss : List Step, run body args ss = body args
  | [] => rfl
  | .any r :: ss => by
    have : Logic.existsNull args = false := by
      induction args with
      | nil => rfl
      | cons v vs ih =>
        simp only [List.mem_cons, not_or] at h
        cases v <;> simp_all [Logic.existsNull, Val.isNull]
    simp only [run, this, Bool.false_eq_true, if_false]
    exact run_else body h ss
  | .at i r :: ss => by
    have : nullAt args i = false := by
      unfold nullAt
      cases e : args[i]? with
      | none => rfl
      | some v =>
        have hm : v ∈ args := List.mem_of_getElem? e
        cases v <;> first | rfl | exact absurd hm h
    simp only [run, this, Bool.false_eq_true, if_false]
    exact run_else body h ss

/-- Without a NULL among the arguments, and with optional arguments left out or not, a function of any name is what its body computes. -/
theorem C251_else (b : Name) (body : List Val → Res Val) (args : List Val) (ha : accepts b args.length = true) (h : Val.null ∉ args) :
    call b body args = body args := by
  unfold call
  unfold accepts at ha
  split <;> rename_i e <;> rw [e] at ha
  · simp only at ha
    rw [if_pos ha, run_else body h]

/-- ROUND(7), whose second argument is left out. -/
example (body : List Val → Res Val) : call ['b','i','n','d','R','o','u','n','d'] body [.int 7] = body [.int 7] :=
  C251_else _ body _ rfl (by simp)

end Verif.Nulls
