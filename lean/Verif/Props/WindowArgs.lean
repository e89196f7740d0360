import Verif.Model.WindowArgs
import Verif.Props.AggOptions

/-!
# C38: the arguments of window functions
-/

namespace Verif.Window

open Go Verif.Val Verif.Aggregate

/-- What `json.Unmarshal` into a WindowFuncOption does, as far as it matters: only a JSON object can be an option, and the option
functions produce texts that decode to what was put in, and are no options of aggregates. -/
structure WinUnmarshal (u : Unmarshal) where
  run : List Char → Option WinOpt
  marshal : WinOpt → List Char
  /-- The options that have a JSON form. -/
  valid : WinOpt → Prop
  object : ∀ s x, run s = some x → (s.dropWhile fun c => c = ' ' ∨ c = '\t' ∨ c = '\n' ∨ c = '\r').head? = some '{'
  roundTrip : ∀ x, valid x → run (marshal x) = some x
  apart : ∀ x, valid x → u.run (marshal x) = none

/-- The arguments of a call as the formatter writes them: the user's, then the options of the aggregate, then those of the window. -/
def written (u : Unmarshal) (w : WinUnmarshal u) (args : List Val) (aopts : List OptArg) (wopts : List WinOpt) : List Val :=
  args ++ aopts.map (fun o => .str (u.marshal o)) ++ wopts.map (fun o => .str (w.marshal o))

/-- Full C38 for window functions: the function receives the user's values, all and in order, with the options of the call. -/
def C38_window_full : Prop :=
  ∀ (u : Unmarshal) (w : WinUnmarshal u) (other) (args : List Val) (aopts : List OptArg) (wopts : List WinOpt),
    (∀ o ∈ aopts, u.valid o) → (∀ o ∈ wopts, w.valid o) →
    splitArgs (toText other) u.run w.run (written u w args aopts wopts) = (args, aopts.foldl AggOpt.set {}, wopts.foldl Status.set {})

theorem parseWindow_append (text unm) (as bs : List Val) (acc) :
    parseWindow text unm (as ++ bs) acc = parseWindow text unm bs (parseWindow text unm as acc) := by
  induction as generalizing acc with
  | nil => rfl
  | cons a as ih =>
    obtain ⟨vs, o⟩ := acc
    simp only [List.cons_append, parseWindow]
    split
    · exact ih _
    · split
      · split <;> exact ih _
      · exact ih _

theorem parseWindow_opts {u : Unmarshal} (w : WinUnmarshal u) (other) (opts : List WinOpt) (hv : ∀ x ∈ opts, w.valid x) (vs o) :
    parseWindow (toText other) w.run (opts.map fun x => .str (w.marshal x)) (vs, o) = (vs, opts.foldl Status.set o) := by
  induction opts generalizing o with
  | nil => rfl
  | cons x opts ih =>
    have ih' := ih (fun x hx => hv x (by simp [hx]))
    simp [parseWindow, Val.isNull, toText, w.roundTrip x (hv x (by simp)), ih']

theorem parseWindow_kept (text) (unm : List Char → Option WinOpt) (as : List Val)
    (h : ∀ a ∈ as, a.isNull = true ∨ ∀ t, text a = .ok t → unm t = none) (vs o) :
    parseWindow text unm as (vs, o) = (vs ++ as, o) := by
  induction as generalizing vs with
  | nil => simp [parseWindow]
  | cons a as ih =>
    have ih' := ih (fun a ha => h a (by simp [ha]))
    simp only [parseWindow]
    split
    · rw [ih']; simp
    · rename_i hn
      rcases h a (by simp) with h1 | h1
      · exact absurd h1 hn
      · split
        · rename_i t ht
          rw [h1 t ht]
          show parseWindow text unm as (vs ++ [a], o) = _
          rw [ih']; simp
        · rw [ih']; simp

/-- The text of a value that cannot be mistaken is no JSON object. -/
theorem unmistakable_text {other} {a : Val} {t : List Char} (h : Unmistakable a) (ht : toText other a = .ok t) :
    (t.dropWhile fun c => c = ' ' ∨ c = '\t' ∨ c = '\n' ∨ c = '\r').head? ≠ some '{' := by
  cases a with
  | null => simp [toText] at ht
  | int i =>
    simp only [toText, Res.ok.injEq] at ht
    subst ht
    exact not_brace_of_mem (decInt_no_brace i)
  | bool b =>
    simp only [toText, Res.ok.injEq] at ht
    subst ht
    exact not_brace_of_mem (by cases b <;> decide)
  | str s =>
    simp only [toText, Res.ok.injEq] at ht
    subst ht
    exact h
  | bytes b =>
    simp only [toText, Res.ok.injEq] at ht
    subst ht
    refine not_brace_of_mem fun hm => ?_
    rcases Base64.mem_encode b _ hm with h | ⟨n, hn, h⟩
    · revert h; decide
    · have : ∀ m, m < 64 → '{' ≠ Base64.digit m := by decide
      exact this n hn h
  | num _ _ => exact h.elim
  | time _ _ => exact h.elim
  | arr _ => exact h.elim
  | struct _ _ => exact h.elim

/-- **C38** arguments that cannot be mistaken all reach a window function, in order, and the window is that of the call. -/
theorem C38_window_partial (u : Unmarshal) (w : WinUnmarshal u) (other) (args : List Val) (aopts : List OptArg) (wopts : List WinOpt)
    (ha : ∀ o ∈ aopts, u.valid o) (hw : ∀ o ∈ wopts, w.valid o) (h : ∀ a ∈ args, Unmistakable a) :
    splitArgs (toText other) u.run w.run (written u w args aopts wopts) = (args, aopts.foldl AggOpt.set {}, wopts.foldl Status.set {}) := by
  have hk : ∀ a ∈ args, Kept (toText other) u.run a := by
    intro a hm
    refine .inr fun t ht => ?_
    cases hu : u.run t with
    | none => rfl
    | some x => exact absurd (u.object t x hu) (unmistakable_text (h a hm) ht)
  have hkw : ∀ a ∈ wopts.map (fun o => Val.str (w.marshal o)), Kept (toText other) u.run a := by
    intro a hm
    simp only [List.mem_map] at hm
    obtain ⟨x, hx, rfl⟩ := hm
    refine .inr fun t ht => ?_
    simp only [toText, Res.ok.injEq] at ht
    subst ht
    exact w.apart x (hw x hx)
  have h1 : parseOptions (toText other) u.run (written u w args aopts wopts) ([], {}) =
      (args ++ wopts.map (fun o => Val.str (w.marshal o)), aopts.foldl AggOpt.set {}) := by
    unfold written
    rw [parse_append, parse_append, parse_kept _ _ args hk, parse_opts u other aopts ha, parse_kept _ _ _ hkw]
    simp
  have h2 : parseWindow (toText other) w.run (args ++ wopts.map (fun o => Val.str (w.marshal o))) ([], {}) = (args, wopts.foldl Status.set {}) := by
    rw [parseWindow_append, parseWindow_kept _ _ args, parseWindow_opts w other wopts hw]
    · simp
    · intro a hm
      refine .inr fun t ht => ?_
      cases hu : w.run t with
      | none => rfl
      | some x => exact absurd (w.object t x hu) (unmistakable_text (h a hm) ht)
  simp only [splitArgs, h1, h2]

/-- **C38** what the options of a window say: the values of PARTITION BY and the keys of ORDER BY in the order of the call, and the last
of the other options of a kind. -/
theorem C38_window_recorded (os : List WinOpt) :
    let s := os.foldl Status.set {}
    s.parts = os.filterMap (fun | .partition v => some v | _ => none) ∧
    s.keys = os.filterMap (fun | .orderBy k => some k | _ => none) ∧
    s.start = (os.filterMap (fun | .start b => some b | _ => none)).getLast? ∧
    s.stop = (os.filterMap (fun | .stop b => some b | _ => none)).getLast? ∧
    s.frameUnit = (os.filterMap (fun | .frameUnit u => some u | _ => none)).getLastD .none ∧
    s.rowid = (os.filterMap (fun | .rowid i => some i | _ => none)).getLastD 0 := by
  have key : ∀ (os : List WinOpt) (s : Status),
      let s' := os.foldl Status.set s
      s'.parts = s.parts ++ os.filterMap (fun | .partition v => some v | _ => none) ∧
      s'.keys = s.keys ++ os.filterMap (fun | .orderBy k => some k | _ => none) ∧
      s'.start = (os.filterMap (fun | .start b => some b | _ => none)).getLast?.or s.start ∧
      s'.stop = (os.filterMap (fun | .stop b => some b | _ => none)).getLast?.or s.stop ∧
      s'.frameUnit = (os.filterMap (fun | .frameUnit u => some u | _ => none)).getLastD s.frameUnit ∧
      s'.rowid = (os.filterMap (fun | .rowid i => some i | _ => none)).getLastD s.rowid := by
    intro os
    induction os with
    | nil => intro s; simp
    | cons x os ih =>
      intro s
      obtain ⟨h1, h2, h3, h4, h5, h6⟩ := ih (s.set x)
      refine ⟨?_, ?_, ?_, ?_, ?_, ?_⟩
      · simp only [List.foldl_cons]; rw [h1]; cases x <;> simp [Status.set]
      · simp only [List.foldl_cons]; rw [h2]; cases x <;> simp [Status.set]
      · simp only [List.foldl_cons]; rw [h3]; cases x <;> simp [Status.set, List.getLast?_cons]
      · simp only [List.foldl_cons]; rw [h4]; cases x <;> simp [Status.set, List.getLast?_cons]
      · simp only [List.foldl_cons]; rw [h5]; cases x <;> simp [Status.set, List.getLastD_eq_getLast?, List.getLast?_cons]
      · simp only [List.foldl_cons]; rw [h6]; cases x <;> simp [Status.set, List.getLastD_eq_getLast?, List.getLast?_cons]
  have := key os {}
  simpa using this

/-- `{"type":"window_frame_unit","value":1}` -/
def rowsText : List Char := "{\"type\":\"window_frame_unit\",\"value\":1}".toList

/-- The option ROWS, as go-json prints and reads it. -/
def rowsJson : WinUnmarshal simpleJson where
  run s := if s = rowsText then some (.frameUnit .rows) else none
  marshal _ := rowsText
  valid x := match x with
    | .frameUnit .rows => True
    | _ => False
  object s x h := by
    split at h
    · rename_i h1; subst h1; decide
    · cases h
  roundTrip x h := by
    match x, h with
    | .frameUnit .rows, _ => rfl
  apart x h := by
    match x, h with
    | .frameUnit .rows, _ => decide

/-- A user's string that is the text of an option does not reach the function. -/
theorem C38_window_full_false : ¬ C38_window_full := by
  intro h
  have := h simpleJson rowsJson (fun _ => .err) [.str rowsText] [] [] (by simp) (by simp)
  have h2 : (splitArgs (toText fun _ => .err) simpleJson.run rowsJson.run (written simpleJson rowsJson [.str rowsText] [] [])).1 = [] := rfl
  rw [this] at h2
  cases h2

/-- **C38** whatever the option: a function of one argument that is called with its text panics, as no argument is left. -/
theorem C38_window_panics (u : Unmarshal) (w : WinUnmarshal u) (other) (x : WinOpt) (aopts : List OptArg) (wopts : List WinOpt)
    (hx : w.valid x) (ha : ∀ o ∈ aopts, u.valid o) (hw : ∀ o ∈ wopts, w.valid o) :
    oneArg (splitArgs (toText other) u.run w.run (written u w [.str (w.marshal x)] aopts wopts)) = .panic := by
  have hkw : ∀ a ∈ wopts.map (fun o => Val.str (w.marshal o)), Kept (toText other) u.run a := by
    intro a hm
    simp only [List.mem_map] at hm
    obtain ⟨x, hx, rfl⟩ := hm
    refine .inr fun t ht => ?_
    simp only [toText, Res.ok.injEq] at ht
    subst ht
    exact w.apart x (hw x hx)
  have hk : ∀ a ∈ [Val.str (w.marshal x)], Kept (toText other) u.run a := by
    intro a hm
    simp only [List.mem_singleton] at hm
    subst hm
    refine .inr fun t ht => ?_
    simp only [toText, Res.ok.injEq] at ht
    subst ht
    exact w.apart x hx
  have h1 : parseOptions (toText other) u.run (written u w [.str (w.marshal x)] aopts wopts) ([], {}) =
      ([.str (w.marshal x)] ++ wopts.map (fun o => Val.str (w.marshal o)), aopts.foldl AggOpt.set {}) := by
    unfold written
    rw [parse_append, parse_append, parse_kept _ _ _ hk, parse_opts u other aopts ha, parse_kept _ _ _ hkw]
    simp
  have h2 := parseWindow_opts w other (x :: wopts) (by
    intro y hy
    simp only [List.mem_cons] at hy
    rcases hy with rfl | hy
    · exact hx
    · exact hw y hy) [] {}
  simp only [List.map_cons] at h2
  simp only [splitArgs, h1, List.singleton_append, h2, oneArg]

/-- SUM(x) OVER (ROWS …) for x = 7 meets the hypotheses. -/
example : splitArgs (toText fun _ => .err) simpleJson.run rowsJson.run (written simpleJson rowsJson [.int 7] [.ignoreNulls] [.frameUnit .rows]) =
    ([.int 7], { ignoreNulls := true }, { frameUnit := .rows }) :=
  C38_window_partial simpleJson rowsJson _ [.int 7] [.ignoreNulls] [.frameUnit .rows] (by simp [simpleJson]) (by simp [rowsJson])
    (by simp [Unmistakable])

end Verif.Window
