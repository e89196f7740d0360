import Verif.Model.TimeZone

/-! # C55: fixed UTC offsets -/

namespace Verif.Zone

open Go

/-- The digit character of a number below ten. -/
abbrev dig (d : Nat) : Char := digitChar d

/-- The zone text `+HH:MM` or `-HH:MM`. -/
def hhmm (neg : Bool) (h1 h2 m1 m2 : Nat) : List Char :=
  [if neg then '-' else '+', dig h1, dig h2, ':', dig m1, dig m2]

/-- The offset the text spells, in seconds. -/
def spelled (neg : Bool) (h m : Nat) : Int := if neg then -((h : Int) * 3600 + m * 60) else h * 3600 + m * 60

/-- What the process may assume about the time zone database: no name starts with UTC but UTC itself,
which is the zone of the empty name. -/
def DbUtc (load : List Char → Option Loc) : Prop := ∀ z l, load (utc z) = some l → load z = some l

/-- Full C55: after any earlier calls, a zone written as an offset is that offset and every other zone
is the one the time zone database has under that name. -/
def C55_full : Prop :=
  ∀ (load : List Char → Option Loc) (hist : List (List Char)), DbUtc load →
    (∀ neg h1 h2 m1 m2, h1 < 10 → h2 < 10 → m1 < 10 → m2 < 10 →
      (toLocation load (after load hist) (hhmm neg h1 h2 m1 m2)).1 =
        some (.fixed (spelled neg (10 * h1 + h2) (10 * m1 + m2)))) ∧
    (∀ name l, load name = some l → (toLocation load (after load hist) name).1 = some l)

theorem two_dig {a b : Nat} (ha : a < 10) (hb : b < 10) : two (dig a) (dig b) = some (10 * a + b) := by
  unfold two; rw [digitVal_digitChar ha, digitVal_digitChar hb]

theorem fullAt_hhmm (neg : Bool) {h1 h2 m1 m2 : Nat} (a : h1 < 10) (b : h2 < 10) (c : m1 < 10) (d : m2 < 10) :
    fullAt (hhmm neg h1 h2 m1 m2) =
      some ((if neg then -1 else 1) * ((10 * h1 + h2 : Nat) : Int), ((10 * m1 + m2 : Nat) : Int)) := by
  unfold hhmm
  simp only [fullAt, two_dig a b, two_dig c d]
  cases neg <;> simp [sign]

theorem fresh_hhmm (load : List Char → Option Loc) (neg : Bool) {h1 h2 m1 m2 : Nat} (a : h1 < 10) (b : h2 < 10)
    (c : m1 < 10) (d : m2 < 10) :
    fresh load (hhmm neg h1 h2 m1 m2) =
      some (.fixed ((if neg then -1 else 1) * ((10 * h1 + h2 : Nat) : Int) * 3600 + ((10 * m1 + m2 : Nat) : Int) * 60)) := by
  have hl : leftmost fullAt (hhmm neg h1 h2 m1 m2) = fullAt (hhmm neg h1 h2 m1 m2) := by
    have := fullAt_hhmm neg a b c d
    rw [hhmm, leftmost, ← hhmm, this]
    rfl
  unfold fresh
  rw [hl, fullAt_hhmm neg a b c d]
  simp only [Int.mul_assoc]
  rfl

/-! ### The cache does not matter -/

theorem sign_utc : sign 'U' = none ∧ sign 'T' = none ∧ sign 'C' = none := by decide

theorem fullAt_nosign {c : Char} (h : sign c = none) (s : List Char) : fullAt (c :: s) = none := by
  unfold fullAt
  split
  · rename_i e; cases e; rw [h]
  · rfl

theorem partAt_nosign {c : Char} (h : sign c = none) (s : List Char) : partAt (c :: s) = none := by
  unfold partAt
  split
  · rename_i e; cases e; rw [h]
  · rfl

theorem leftmost_utc_full (z : List Char) : leftmost fullAt (utc z) = leftmost fullAt z := by
  simp only [utc, leftmost, fullAt_nosign sign_utc.1, fullAt_nosign sign_utc.2.1, fullAt_nosign sign_utc.2.2,
    Option.none_or]

theorem leftmost_utc_part (z : List Char) : leftmost partAt (utc z) = leftmost partAt z := by
  simp only [utc, leftmost, partAt_nosign sign_utc.1, partAt_nosign sign_utc.2.1, partAt_nosign sign_utc.2.2,
    Option.none_or]

theorem fresh_utc {load} (hdb : DbUtc load) {z : List Char} {l : Loc} (h : fresh load (utc z) = some l) :
    fresh load z = some l := by
  unfold fresh at *
  rw [leftmost_utc_full, leftmost_utc_part] at h
  cases h1 : leftmost fullAt z with
  | some p => rw [h1] at h; simpa using h
  | none =>
    cases h2 : leftmost partAt z with
    | some p => rw [h1, h2] at h; simpa using h
    | none =>
      rw [h1, h2] at h
      exact hdb z l h

theorem fresh_utc' {load} {z : List Char} (hz : key z = utc z) : fresh load (utc z) = fresh load z := by
  unfold key at hz
  have hne : z ≠ utc z := fun e => by have := congrArg List.length e; simp [utc] at this; omega
  unfold fresh
  rw [leftmost_utc_full, leftmost_utc_part]
  split
  · rfl
  · rename_i h1
    split
    · rfl
    · rename_i h2
      rw [h1, h2] at hz
      exact absurd hz hne

/-- Every cached location is what a fresh look-up of its key gives. -/
def CacheOk (load : List Char → Option Loc) (m : Cache) : Prop := ∀ k l, (k, l) ∈ m → fresh load k = some l

theorem key_cases (z : List Char) : key z = z ∨ key z = utc z := by
  unfold key; split <;> simp

theorem mem_of_lookup {k : List Char} {l : Loc} : ∀ {m : Cache}, m.lookup k = some l → (k, l) ∈ m
  | [], h => by simp at h
  | (a, b) :: m, h => by
    rw [List.lookup_cons] at h
    split at h
    · rename_i e
      have : k = a := by simpa using e
      cases h; subst this; exact List.mem_cons_self
    · exact List.mem_cons_of_mem _ (mem_of_lookup h)

theorem cached_ok {load m} (hdb : DbUtc load) (hm : CacheOk load m) {z : List Char} {l : Loc} (h : cached m z = some l) :
    fresh load z = some l := by
  unfold cached at h
  rw [Option.or_eq_some_iff] at h
  rcases h with h | ⟨_, h⟩
  · exact hm _ _ (mem_of_lookup h)
  · exact fresh_utc hdb (hm _ _ (mem_of_lookup h))

theorem step_ok {load m} (hdb : DbUtc load) (hm : CacheOk load m) (z : List Char) :
    (toLocation load m z).1 = fresh load z ∧ CacheOk load (toLocation load m z).2 := by
  unfold toLocation
  split
  · rename_i l h
    exact ⟨(cached_ok hdb hm h).symm, hm⟩
  · split
    · rename_i l h
      refine ⟨h.symm, fun k l' hk => ?_⟩
      rcases List.mem_cons.mp hk with e | hk
      · cases e
        rcases key_cases z with hz | hz
        · rw [hz]; exact h
        · rw [hz, fresh_utc' hz]; exact h
      · exact hm _ _ hk
    · rename_i h
      exact ⟨h.symm, hm⟩

theorem after_ok {load} (hdb : DbUtc load) : ∀ hist, CacheOk load (after load hist)
  | [] => fun _ _ h => absurd h List.not_mem_nil
  | z :: h => (step_ok hdb (after_ok hdb h) z).2

/-- **C55** the answer does not depend on the zones used before. -/
theorem C55_history (load : List Char → Option Loc) (hdb : DbUtc load) (hist : List (List Char)) (z : List Char) :
    (toLocation load (after load hist) z).1 = (toLocation load [] z).1 := by
  rw [(step_ok hdb (after_ok hdb hist) z).1, (step_ok hdb (m := []) (after_ok hdb []) z).1]

/-! ### C55 -/

/-- The offset is right exactly when it is positive or has no minutes. -/
theorem C55_offset_partial (load : List Char → Option Loc) (hdb : DbUtc load) (hist : List (List Char)) (neg : Bool)
    (h1 h2 m1 m2 : Nat) (a : h1 < 10) (b : h2 < 10) (c : m1 < 10) (d : m2 < 10) :
    (toLocation load (after load hist) (hhmm neg h1 h2 m1 m2)).1 =
        some (.fixed (spelled neg (10 * h1 + h2) (10 * m1 + m2))) ↔ neg = false ∨ 10 * m1 + m2 = 0 := by
  rw [(step_ok hdb (after_ok hdb hist) _).1, fresh_hhmm load neg a b c d]
  unfold spelled
  cases neg
  · simp
  · simp
    omega

/-- "-03:30" is two and a half hours west. -/
theorem C55_full_false : ¬ C55_full := by
  intro h
  have := (h (fun _ => none) [] (fun _ _ h => by simp at h)).1 true 0 3 3 0 (by omega) (by omega) (by omega) (by omega)
  rw [C55_offset_partial (fun _ => none) (fun _ _ h => by simp at h) [] true 0 3 3 0 (by omega) (by omega) (by omega)
    (by omega)] at this
  simp at this

/-- Etc/GMT+10, ten hours west of UTC in the time zone database, is taken as ten hours east. -/
theorem C55_named_false (load : List Char → Option Loc) (hdb : DbUtc load) (hist : List (List Char)) :
    (toLocation load (after load hist) ['E','t','c','/','G','M','T','+','1','0']).1 = some (.fixed 36000) := by
  rw [(step_ok hdb (after_ok hdb hist) _).1]
  have h1 : leftmost fullAt ['E','t','c','/','G','M','T','+','1','0'] = none := by decide
  have h2 : leftmost partAt ['E','t','c','/','G','M','T','+','1','0'] = some 10 := by decide
  unfold fresh
  rw [h1, h2]
  rfl

theorem leftmost_none {α} {f : List Char → Option α} (hf : ∀ c s, sign c = none → f (c :: s) = none) (h0 : f [] = none) :
    ∀ {z : List Char}, (∀ c ∈ z, sign c = none) → leftmost f z = none
  | [], _ => h0
  | c :: s, h => by
    rw [leftmost, hf c s (h c List.mem_cons_self), Option.none_or]
    exact leftmost_none hf h0 fun d hd => h d (List.mem_cons_of_mem _ hd)

/-- **C55** a name without + and - is looked up in the time zone database. -/
theorem C55_named_partial (load : List Char → Option Loc) (hdb : DbUtc load) (hist : List (List Char)) (name : List Char)
    (h : ∀ c ∈ name, c ≠ '+' ∧ c ≠ '-') : (toLocation load (after load hist) name).1 = load name := by
  have hs : ∀ c ∈ name, sign c = none := by
    intro c hc
    unfold sign
    rw [if_neg (h c hc).1, if_neg (h c hc).2]
  rw [(step_ok hdb (after_ok hdb hist) _).1]
  unfold fresh
  rw [leftmost_none (fun c s hc => fullAt_nosign hc s) rfl hs, leftmost_none (fun c s hc => partAt_nosign hc s) rfl hs]

example : DbUtc (fun z => if z = ['U','T','C'] ∨ z = [] then some (.db []) else none) := by
  intro z l h
  cases z with
  | nil => simpa [utc] using h
  | cons c s => simp [utc] at h

end Verif.Zone
