import Verif.Model.WindowAgg
import Verif.Props.Window
import Verif.Props.WindowRowsExact
import Verif.Props.ApproxStat

/-! # C202–C208: aggregates as analytic functions -/

namespace Verif.WindowAgg

open Go Verif.Val Verif.Aggregate Verif.Window Verif.Sql

/-! ## Values told apart by their texts -/

/-- A column of one of the types INT64, BOOL, STRING or BYTES, with NULLs. -/
def Column (vs : List Val) : Prop :=
  (∀ v ∈ vs, v = .null ∨ ∃ i, v = .int i) ∨ (∀ v ∈ vs, v = .null ∨ ∃ b, v = .bool b) ∨
  (∀ v ∈ vs, v = .null ∨ ∃ s, v = .str s) ∨ ∀ v ∈ vs, v = .null ∨ ∃ b, v = .bytes b

/-- The texts of the values exist and tell them apart. -/
structure Faithful (text : Val → Res (List Char)) (f : Val → List Char) (vs : List Val) : Prop where
  ok : ∀ v ∈ vs, v.isNull = false → text v = .ok (f v)
  inj : ∀ v ∈ vs, ∀ w ∈ vs, v.isNull = false → w.isNull = false → f v = f w → v = w

/-- The text of a value of these types. -/
def textOf : Val → List Char
  | .int i => decInt i
  | .bool b => if b then ['t','r','u','e'] else ['f','a','l','s','e']
  | .str s => s
  | .bytes b => Base64.encode b
  | _ => []

theorem column_faithful (other : Val → Res (List Char)) {vs : List Val} (h : Column vs) : Faithful (toText other) textOf vs := by
  constructor
  · intro v hv hn
    rcases h with h | h | h | h <;> rcases h v hv with rfl | ⟨x, rfl⟩ <;> first | rfl | simp [Val.isNull] at hn
  · intro v hv w hw hn hm he
    rcases h with h | h | h | h <;> rcases h v hv with rfl | ⟨x, rfl⟩ <;> rcases h w hw with rfl | ⟨y, rfl⟩ <;>
      first | (simp [Val.isNull] at hn; done) | (simp [Val.isNull] at hm; done) | skip
    · rw [decInt_injective he]
    · cases x <;> cases y <;> first | rfl | simp [textOf] at he
    · exact congrArg _ he
    · rw [Base64.encode_injective he]

theorem Column.sub {vs us : List Val} (h : Column vs) (hs : ∀ u ∈ us, u ∈ vs) : Column us := by
  rcases h with h | h | h | h
  · exact .inl fun v hv => h v (hs v hv)
  · exact .inr (.inl fun v hv => h v (hs v hv))
  · exact .inr (.inr (.inl fun v hv => h v (hs v hv)))
  · exact .inr (.inr (.inr fun v hv => h v (hs v hv)))

/-- The values an aggregate uses: those that are not NULL, under DISTINCT each once. -/
def Used (distinct : Bool) (vs us : List Val) : Prop :=
  if distinct then us.Nodup ∧ ∀ v, v ∈ us ↔ v ∈ vs ∧ v.isNull = false else us = vs.filter fun v => !v.isNull

/-- The first occurrence of every text. -/
def firsts (f : Val → List Char) : List (List Char) → List Val → List Val
  | _, [] => []
  | seen, v :: vs => if v.isNull then firsts f seen vs else if f v ∈ seen then firsts f seen vs else v :: firsts f (f v :: seen) vs

theorem firsts_mem (f : Val → List Char) (vs : List Val) : ∀ seen u, u ∈ firsts f seen vs → u ∈ vs ∧ u.isNull = false ∧ f u ∉ seen := by
  induction vs with
  | nil => intro seen u h; cases h
  | cons v vs ih =>
    intro seen u h
    rw [firsts] at h
    split at h
    · obtain ⟨h1, h2⟩ := ih _ _ h; exact ⟨List.mem_cons_of_mem _ h1, h2⟩
    · rename_i hn
      split at h
      · obtain ⟨h1, h2⟩ := ih _ _ h; exact ⟨List.mem_cons_of_mem _ h1, h2⟩
      · rename_i hs
        rcases List.mem_cons.mp h with rfl | h
        · exact ⟨List.mem_cons_self, by simpa using hn, hs⟩
        · obtain ⟨h1, h2, h3⟩ := ih _ _ h
          exact ⟨List.mem_cons_of_mem _ h1, h2, fun h => h3 (List.mem_cons_of_mem _ h)⟩

theorem firsts_complete (f : Val → List Char) (vs : List Val) :
    (∀ v ∈ vs, ∀ w ∈ vs, v.isNull = false → w.isNull = false → f v = f w → v = w) →
    ∀ seen u, u ∈ vs → u.isNull = false → f u ∉ seen → u ∈ firsts f seen vs := by
  induction vs with
  | nil => intro _ seen u h; cases h
  | cons v vs ih =>
    intro hi seen u hu hn hs
    have ih := ih (fun a ha b hb => hi a (List.mem_cons_of_mem _ ha) b (List.mem_cons_of_mem _ hb))
    rw [firsts]
    by_cases hvn : v.isNull = true
    · rw [if_pos hvn]
      rcases List.mem_cons.mp hu with rfl | hu
      · rw [hn] at hvn; cases hvn
      · exact ih _ _ hu hn hs
    · rw [if_neg hvn]
      by_cases hvs : f v ∈ seen
      · rw [if_pos hvs]
        rcases List.mem_cons.mp hu with rfl | hu
        · exact absurd hvs hs
        · exact ih _ _ hu hn hs
      · rw [if_neg hvs]
        by_cases he : f u = f v
        · rw [hi u hu v List.mem_cons_self hn (by simpa using hvn) he]; exact List.mem_cons_self
        · rcases List.mem_cons.mp hu with rfl | hu
          · exact absurd rfl he
          · refine List.mem_cons_of_mem _ (ih _ _ hu hn ?_)
            simp [he, hs]

theorem firsts_nodup (f : Val → List Char) (vs : List Val) : ∀ seen, (firsts f seen vs).Nodup := by
  induction vs with
  | nil => intro; exact .nil
  | cons v vs ih =>
    intro seen
    rw [firsts]
    split
    · exact ih _
    · split
      · exact ih _
      · refine List.nodup_cons.mpr ⟨fun h => ?_, ih _⟩
        exact (firsts_mem f vs _ _ h).2.2 List.mem_cons_self

/-- The values the shared loop uses. -/
def used (distinct : Bool) (f : Val → List Char) (vs : List Val) : List Val :=
  if distinct then firsts f [] vs else vs.filter fun v => !v.isNull

theorem used_spec {distinct : Bool} {text f} {vs : List Val} (h : Faithful text f vs) : Used distinct vs (used distinct f vs) := by
  unfold Used used
  cases distinct
  · simp
  · simp only [if_true]
    refine ⟨firsts_nodup f vs [], fun v => ⟨fun hv => ?_, fun hv => ?_⟩⟩
    · have := firsts_mem f vs _ _ hv; exact ⟨this.1, this.2.1⟩
    · exact firsts_complete f vs h.inj [] v hv.1 hv.2 (by simp)

theorem loop_true {σ : Type} {text f} (body : σ → Val → Res σ) (vs : List Val) : (∀ v ∈ vs, v.isNull = false → text v = .ok (f v)) →
    ∀ seen s, loop true text body seen s vs = feed body s (firsts f seen vs) := by
  induction vs with
  | nil => intro _ seen s; rfl
  | cons v vs ih =>
    intro h seen s
    have ih := ih (fun a ha => h a (List.mem_cons_of_mem _ ha))
    rw [loop, firsts]
    by_cases hn : v.isNull = true
    · rw [if_pos hn, if_pos hn, ih]
    · rw [if_neg hn, if_neg hn, if_pos rfl, h v List.mem_cons_self (by simpa using hn), Res.bind'_ok]
      by_cases hs : f v ∈ seen
      · rw [if_pos hs, if_pos hs, ih]
      · rw [if_neg hs, if_neg hs, feed]
        congr 1; funext s'; exact ih _ _

theorem loop_false {σ : Type} {text} (body : σ → Val → Res σ) (vs : List Val) :
    ∀ seen s, loop false text body seen s vs = feed body s (vs.filter fun v => !v.isNull) := by
  induction vs with
  | nil => intro seen s; rfl
  | cons v vs ih =>
    intro seen s
    rw [loop]
    by_cases hn : v.isNull = true
    · rw [if_pos hn, ih, List.filter_cons_of_neg (by simp [hn])]
    · rw [if_neg hn, if_neg (by simp), List.filter_cons_of_pos (by simp [hn]), feed]
      congr 1; funext s'; exact ih _ _

theorem loop_eq {σ : Type} {distinct : Bool} {text f} (body : σ → Val → Res σ) {vs : List Val} (h : Faithful text f vs) (s : σ) :
    loop distinct text body [] s vs = feed body s (used distinct f vs) := by
  unfold used
  cases distinct
  · rw [loop_false]; rfl
  · rw [loop_true body vs h.ok]; rfl

theorem used_length (distinct : Bool) {f} (vs : List Val) : (used distinct f vs).length ≤ vs.length := by
  unfold used
  cases distinct
  · exact List.length_filter_le _ _
  · simp only [if_true]
    generalize [] = seen
    induction vs generalizing seen with
    | nil => exact Nat.le_refl _
    | cons v vs ih =>
      rw [firsts]
      split
      · exact Nat.le_succ_of_le (ih _)
      · split
        · exact Nat.le_succ_of_le (ih _)
        · exact Nat.succ_le_succ (ih _)

/-! ## A frame that is empty by its bounds -/

/-- Four equal rows without PARTITION BY and ORDER BY. -/
def four (v : Val) : List SRow := [⟨[], [], v⟩, ⟨[], [], v⟩, ⟨[], [], v⟩, ⟨[], [], v⟩]

theorem four_good (text : Val → Res (List Char)) (v : Val) : GoodParts text (four v) ∧ GoodKeys [] (four v) :=
  ⟨.inl (by simp [four]), by simp [four], by simp [four], fun r hr s hs => by
    simp [four] at hr hs; subst hr hs; exact .nil⟩

theorem four_done (S : Sorter) (text : Val → Res (List Char)) (v : Val) (W : List Nat) (hW : WindowOrder [] (four v) [] W) :
    ∃ i j : Nat, W[i]? = some j ∧ rowsFrame W (.preceding 1) (.preceding 3) i = [] ∧
      (sortedRows S [] (four v) []).length = 4 ∧
      done S text .rows (.preceding 1) (.preceding 3) (input [] (four v)) ((j : Int) + 1) = .ok (some (sortedRows S [] (four v) [], 2, 0)) := by
  have hg := (four_good text v).1
  have hlen : (windowOrder S [] (four v) []).length = 4 := by
    rw [(windowOrder_perm S [] (four v) []).length_eq]; rfl
  obtain ⟨j, hj⟩ : ∃ j, (windowOrder S [] (four v) [])[3]? = some j := ⟨_, List.getElem?_eq_getElem (by omega)⟩
  obtain ⟨r, hr, hrp⟩ := mem_windowOrder.mp (List.mem_of_getElem? hj)
  have hjW : j ∈ W := hW.perm.mem_iff.mpr (mem_members.mpr ⟨r, hr, hrp⟩)
  obtain ⟨i, hi⟩ := List.getElem?_of_mem hjW
  have hsl : (sortedRows S [] (four v) []).length = 4 := by simpa [windowOrder] using hlen
  refine ⟨i, j, hi, ?_, hsl, ?_⟩
  · unfold rowsFrame
    rw [List.map_eq_nil_iff, List.filter_eq_nil_iff]
    intro q _
    rw [decide_eq_true_eq]
    simp only [lowerOk, upperOk]
    omega
  · have hci : currentIndex (sortedRows S [] (four v) []) j = .ok 3 := currentIndex_eq hj
    rw [done_eq hg hr, hrp]
    simp [boundaryIndex, rowsIndex, hci, hsl]

theorem four_panic (S : Sorter) (text : Val → Res (List Char)) (v : Val) (W : List Nat) (hW : WindowOrder [] (four v) [] W) :
    ∃ i j : Nat, W[i]? = some j ∧ rowsFrame W (.preceding 1) (.preceding 3) i = [] ∧
      frameValues S text .rows (.preceding 1) (.preceding 3) (input [] (four v)) ((j : Int) + 1) = .panic := by
  obtain ⟨i, j, h1, h2, h3, h4⟩ := four_done S text v W hW
  refine ⟨i, j, h1, h2, ?_⟩
  unfold frameValues frame
  rw [h4]
  simp [slice, h3, Res.bind]

/-- The values of the frame `b … e` around position `i` of the window order `W`. -/
def vals (rows : List SRow) (W : List Nat) (b e : Boundary) (i : Nat) : List Val := (rowsFrame W b e i).map (valueAt rows)

theorem vals_mem {flags} {rows : List SRow} {W : List Nat} {p} (hW : WindowOrder flags rows p W) {b e : Boundary} {i : Nat} {v : Val}
    (h : v ∈ vals rows W b e i) : v ∈ rows.map SRow.value := by
  unfold vals rowsFrame at h
  simp only [List.mem_map, List.mem_filter] at h
  obtain ⟨j, ⟨⟨j', n⟩, ⟨hq, _⟩, rfl⟩, rfl⟩ := h
  have hj : j' ∈ W := List.mem_of_getElem? (List.mem_zipIdx_iff_getElem?.mp hq)
  obtain ⟨r, hr, _⟩ := mem_members.mp (hW.perm.mem_iff.mp hj)
  refine List.mem_map.mpr ⟨r, List.mem_of_getElem? hr, ?_⟩
  simp [valueAt, hr]

theorem vals_length {flags} {rows : List SRow} {W : List Nat} {p} (hW : WindowOrder flags rows p W) (b e : Boundary) (i : Nat) :
    (vals rows W b e i).length ≤ rows.length := by
  unfold vals rowsFrame
  rw [List.length_map, List.length_map]
  refine Nat.le_trans (List.length_filter_le _ _) ?_
  rw [List.length_zipIdx, hW.perm.length_eq]
  refine Nat.le_trans (List.length_filter_le _ _) ?_
  simp

/-! ## C202: COUNT and COUNTIF over a frame -/

/-- The value TRUE. -/
def isTrue : Val → Bool
  | .bool true => true
  | _ => false

/-- COUNT(*), COUNT([DISTINCT] x) and COUNTIF(x) of the values `vs` of a frame. -/
structure CountSpec (vs : List Val) (star cond : Res Val) (count : Bool → Res Val) : Prop where
  star : star = .ok (.int vs.length)
  count : ∀ d, ∃ us, Used d vs us ∧ count d = .ok (.int us.length)
  countif : (∀ v ∈ vs, v = .null ∨ ∃ b, v = .bool b) →
    ∃ n : Nat, cond = .ok (.int n) ∧ n = vs.countP isTrue

/-- **C202** in full: every ROWS frame. -/
def C202_full (S : Sorter) (other : Val → Res (List Char)) : Prop :=
  ∀ flags rows, GoodParts (toText other) rows → GoodKeys flags rows → Column (rows.map SRow.value) → rows.length < 2 ^ 63 →
    ∀ p, ∃ W, WindowOrder flags rows p W ∧ ∀ (b e : Boundary), Grammatical b e → ∀ (i j : Nat), W[i]? = some j →
      CountSpec (vals rows W b e i) (winCountStar S (toText other) .rows b e (input flags rows) ((j : Int) + 1))
        (winCountIf S (toText other) .rows b e (input flags rows) ((j : Int) + 1))
        fun d => winCount d S (toText other) .rows b e (input flags rows) ((j : Int) + 1)

theorem count_feed (us : List Val) : ∀ n : Nat, n + us.length < 2 ^ 63 →
    feed (fun (n : Int) (_ : Val) => Res.ok (wrap64 (n + 1))) (n : Int) us = .ok ((n + us.length : Nat) : Int) := by
  induction us with
  | nil => intro n _; rfl
  | cons u us ih =>
    intro n h
    simp only [List.length_cons] at h
    have hw : wrap64 ((n : Int) + 1) = ((n + 1 : Nat) : Int) := by rw [wrap64_small (by omega) (by omega)]; omega
    rw [feed, Res.bind'_ok, hw, ih (n + 1) (by omega)]
    simp only [List.length_cons]
    rw [show n + 1 + us.length = n + (us.length + 1) by omega]

theorem countIf_eq (vs : List Val) (h : ∀ v ∈ vs, v = .null ∨ ∃ b, v = .bool b) : ∀ n : Nat, n + vs.length < 2 ^ 63 →
    countIfLoop n vs = .ok ((n + vs.countP isTrue : Nat) : Int) := by
  induction vs with
  | nil => intro n _; rfl
  | cons v vs ih =>
    intro n hn
    simp only [List.length_cons] at hn
    have ih := ih (fun v hv => h v (List.mem_cons_of_mem _ hv))
    rcases h v List.mem_cons_self with rfl | ⟨b, rfl⟩
    · rw [countIfLoop, if_pos (by rfl), ih n (by omega), List.countP_cons_of_neg (by simp [isTrue])]
    · rw [countIfLoop, if_neg (by simp [Val.isNull]), Val.toBool, Res.bind'_ok]
      cases b
      · rw [if_neg (by simp), ih n (by omega), List.countP_cons_of_neg (by simp [isTrue])]
      · rw [if_pos rfl, List.countP_cons_of_pos rfl]
        have hw : wrap64 ((n : Int) + 1) = ((n + 1 : Nat) : Int) := by rw [wrap64_small (by omega) (by omega)]; omega
        rw [hw, ih (n + 1) (by omega), show n + 1 + vs.countP isTrue = n + (vs.countP isTrue + 1) by omega]

/-- C202 on the window order. -/
theorem count_core (S : Sorter) (other : Val → Res (List Char)) (flags : List Bool) (rows : List SRow)
    (hg : GoodParts (toText other) rows) (hk : GoodKeys flags rows) (hc : Column (rows.map SRow.value)) (hl : rows.length < 2 ^ 63)
    (p : List (Option Scalar)) : ∀ (b e : Boundary), Grammatical b e → ∀ (i j : Nat), (windowOrder S flags rows p)[i]? = some j →
      ¬ Reversed (windowOrder S flags rows p).length i b e →
      CountSpec (vals rows (windowOrder S flags rows p) b e i) (winCountStar S (toText other) .rows b e (input flags rows) ((j : Int) + 1))
        (winCountIf S (toText other) .rows b e (input flags rows) ((j : Int) + 1))
        fun d => winCount d S (toText other) .rows b e (input flags rows) ((j : Int) + 1) := by
  have hW := windowOrder_ok S hk p
  intro b e hge i j h ho
  have hcol := hc.sub (fun u hu => vals_mem (b := b) (e := e) (i := i) hW hu)
  have hlen := vals_length hW b e i
  obtain ⟨r, hr, rfl⟩ := mem_windowOrder.mp (List.mem_of_getElem? h)
  have hf := (rows_exact S hg hge h).2 ho
  rw [← vals] at hf
  have hfa := column_faithful other hcol
  refine ⟨?_, fun d => ⟨_, used_spec hfa, ?_⟩, fun hb => ⟨_, ?_, rfl⟩⟩
  · unfold winCountStar
    rw [hf, Res.bind'_ok, countStarFrame, wrap64_small (by omega) (by omega)]
  · have := used_length d (f := textOf) (vals rows (windowOrder S flags rows r.parts) b e i)
    unfold winCount
    rw [hf, Res.bind'_ok, countFrame, loop_eq _ hfa, ← Int.natCast_zero, count_feed _ 0 (by omega), Res.bind'_ok]
    simp
  · unfold winCountIf
    rw [hf, Res.bind'_ok, countIfFrame, ← Int.natCast_zero, countIf_eq _ hb 0 (by omega), Res.bind'_ok]
    simp

/-- **C202**, the part that holds: every frame that is not reversed. -/
theorem C202_partial (S : Sorter) (other : Val → Res (List Char)) (flags : List Bool) (rows : List SRow)
    (hg : GoodParts (toText other) rows) (hk : GoodKeys flags rows) (hc : Column (rows.map SRow.value)) (hl : rows.length < 2 ^ 63)
    (p : List (Option Scalar)) :
    ∃ W, WindowOrder flags rows p W ∧ ∀ (b e : Boundary), Grammatical b e → ∀ (i j : Nat), W[i]? = some j → ¬ Reversed W.length i b e →
      CountSpec (vals rows W b e i) (winCountStar S (toText other) .rows b e (input flags rows) ((j : Int) + 1))
        (winCountIf S (toText other) .rows b e (input flags rows) ((j : Int) + 1))
        fun d => winCount d S (toText other) .rows b e (input flags rows) ((j : Int) + 1) :=
  ⟨windowOrder S flags rows p, windowOrder_ok S hk p, count_core S other flags rows hg hk hc hl p⟩

theorem C202_full_false (S : Sorter) (other : Val → Res (List Char)) : ¬ C202_full S other := by
  intro h
  obtain ⟨hg, hk⟩ := four_good (toText other) .null
  obtain ⟨W, hW, h⟩ := h [] (four .null) hg hk (.inl (by simp [four])) (by decide) []
  obtain ⟨i, j, hi, h0, h1⟩ := four_panic S (toText other) .null W hW
  have := (h (.preceding 1) (.preceding 3) ⟨by simp, by simp⟩ i j hi).star
  unfold winCountStar at this
  rw [h1] at this
  cases this

example : countFrame true (toText fun _ => .err) [.str ['a'], .null, .str ['b'], .str ['a']] = .ok (.int 2) := by rfl
example : countIfFrame [.bool true, .null, .bool false, .bool true] = .ok (.int 2) := by rfl

/-! ## C203: SUM over a frame -/

/-- SUM([DISTINCT] x) of the INT64 values `vs`: an error if the sum is not an INT64. -/
def SumSpec (d : Bool) (vs : List Val) (out : Res Val) : Prop :=
  ∃ zs : List Int, Used d vs (zs.map .int) ∧
    out = if zs = [] then .ok .null else if InI64 zs.sum then .ok (.int zs.sum) else .err

/-- INT64 values and NULLs. -/
def IntColumn (vs : List Val) : Prop := ∀ v ∈ vs, v = .null ∨ ∃ i, v = .int i ∧ InI64 i

theorem IntColumn.column {vs : List Val} (h : IntColumn vs) : Column vs :=
  .inl fun v hv => (h v hv).imp id fun ⟨i, h, _⟩ => ⟨i, h⟩

/-- **C203** in full: every ROWS frame of an INT64 argument. -/
def C203_full (S : Sorter) (other : Val → Res (List Char)) : Prop :=
  ∀ flags rows, GoodParts (toText other) rows → GoodKeys flags rows → IntColumn (rows.map SRow.value) →
    ∀ p, ∃ W, WindowOrder flags rows p W ∧ ∀ (b e : Boundary), Grammatical b e → ∀ (d : Bool) (i j : Nat), W[i]? = some j →
      SumSpec d (vals rows W b e i) (winSum d S (toText other) .rows b e (input flags rows) ((j : Int) + 1))

theorem used_mem {d : Bool} {f} {vs : List Val} {u : Val} (h : u ∈ used d f vs) : u ∈ vs ∧ u.isNull = false := by
  unfold used at h
  cases d
  · simpa [List.mem_filter] using h
  · have := firsts_mem f vs _ _ h; exact ⟨this.1, this.2.1⟩

theorem ints_of {us : List Val} (h : ∀ u ∈ us, ∃ i, u = .int i ∧ InI64 i) : ∃ zs : List Int, us = zs.map .int ∧ ∀ z ∈ zs, InI64 z := by
  induction us with
  | nil => exact ⟨[], rfl, by simp⟩
  | cons u us ih =>
    obtain ⟨zs, rfl, hz⟩ := ih (fun u hu => h u (List.mem_cons_of_mem _ hu))
    obtain ⟨i, rfl, hi⟩ := h u List.mem_cons_self
    exact ⟨i :: zs, rfl, by simpa using ⟨hi, hz⟩⟩

theorem sum_feed (zs : List Int) (hz : ∀ z ∈ zs, InI64 z) :
    feed (fun (s v : Val) => if s.isNull then .ok v else addVal s v) .null (zs.map .int) =
      .ok (if zs = [] then .null else .int (wrap64 zs.sum)) := by
  cases zs with
  | nil => rfl
  | cons z zs =>
    have := feed_sum_int z zs
    rw [wrap64_eq (hz z List.mem_cons_self)] at this
    exact this

/-- **C203**, the part that holds: a frame that is not reversed and a sum that is an INT64 (it wraps around otherwise). -/
theorem C203_partial (S : Sorter) (other : Val → Res (List Char)) (flags : List Bool) (rows : List SRow)
    (hg : GoodParts (toText other) rows) (hk : GoodKeys flags rows) (hc : IntColumn (rows.map SRow.value))
    (p : List (Option Scalar)) :
    ∃ W, WindowOrder flags rows p W ∧ ∀ (b e : Boundary), Grammatical b e → ∀ (d : Bool) (i j : Nat), W[i]? = some j → ¬ Reversed W.length i b e →
      ∃ zs : List Int, Used d (vals rows W b e i) (zs.map .int) ∧
        winSum d S (toText other) .rows b e (input flags rows) ((j : Int) + 1) =
          (if zs = [] then .ok .null else .ok (.int (wrap64 zs.sum))) ∧
        (SumSpec d (vals rows W b e i) (winSum d S (toText other) .rows b e (input flags rows) ((j : Int) + 1)) ↔
          zs = [] ∨ InI64 zs.sum) := by
  have hW := windowOrder_ok S hk p
  refine ⟨windowOrder S flags rows p, hW, ?_⟩
  intro b e hge d i j h ho
  have hint : IntColumn (vals rows (windowOrder S flags rows p) b e i) := fun v hv => hc v (vals_mem hW hv)
  obtain ⟨r, hr, rfl⟩ := mem_windowOrder.mp (List.mem_of_getElem? h)
  have hf := (rows_exact S hg hge h).2 ho
  rw [← vals] at hf
  have hfa := column_faithful other hint.column
  have hu := used_spec (distinct := d) hfa
  generalize hvs : vals rows (windowOrder S flags rows r.parts) b e i = vs at *
  obtain ⟨zs, hzs, hz⟩ := ints_of (us := used d textOf vs) (fun u hm => by
    obtain ⟨h1, h2⟩ := used_mem hm
    rcases hint u h1 with rfl | h3
    · simp at h2
    · exact h3)
  have hval : winSum d S (toText other) .rows b e (input flags rows) ((j : Int) + 1) =
      (if zs = [] then .ok .null else .ok (.int (wrap64 zs.sum))) := by
    unfold winSum
    rw [hf, Res.bind'_ok, sumFrame, loop_eq _ hfa, hzs, sum_feed zs hz]
    split <;> rfl
  refine ⟨zs, hzs ▸ hu, hval, ?_⟩
  rw [hval]
  constructor
  · rintro ⟨ys, hy, he⟩
    by_cases h0 : zs = []
    · exact .inl h0
    refine .inr ?_
    have hperm : ys.Perm zs := by
      unfold Used at hy hu
      cases d
      · simp only [Bool.false_eq_true, if_false] at hy hu
        have := hy.trans hu.symm
        rw [hzs] at this
        rw [(List.map_inj_right (fun a b h => by injection h)).mp this]
      · simp only [if_true] at hy hu
        rw [hzs] at hu
        refine (List.perm_ext_iff_of_nodup ?_ ?_).mpr fun z => ?_
        · exact (List.pairwise_map.mp hy.1).imp fun h e => h (by rw [e])
        · exact (List.pairwise_map.mp hu.1).imp fun h e => h (by rw [e])
        · have h1 := hy.2 (.int z)
          have h2 := hu.2 (.int z)
          have h3 : ∀ l : List Int, (Val.int z ∈ l.map Val.int ↔ z ∈ l) := fun l => by simp
          rw [h3] at h1 h2
          exact h1.trans h2.symm
    have hs : ys.sum = zs.sum := sum_perm hperm
    have hne : ys ≠ [] := fun h => h0 (by rw [h] at hperm; exact hperm.nil_eq.symm)
    rw [if_neg h0, if_neg hne, hs] at he
    by_cases hr : InI64 zs.sum
    · exact hr
    · rw [if_neg hr] at he; cases he
  · intro h
    refine ⟨zs, hzs ▸ hu, ?_⟩
    split
    · rfl
    · rcases h with h | h
      · contradiction
      · rw [if_pos h, wrap64_eq h]

theorem C203_full_false (S : Sorter) (other : Val → Res (List Char)) : ¬ C203_full S other := by
  intro h
  obtain ⟨hg, hk⟩ := four_good (toText other) .null
  obtain ⟨W, hW, h⟩ := h [] (four .null) hg hk (by simp [four, IntColumn]) []
  obtain ⟨i, j, hi, h0, h1⟩ := four_panic S (toText other) .null W hW
  obtain ⟨zs, _, h2⟩ := h (.preceding 1) (.preceding 3) ⟨by simp, by simp⟩ false i j hi
  unfold winSum at h2
  rw [h1] at h2
  simp only [Res.bind] at h2
  split at h2
  · cases h2
  · split at h2 <;> cases h2

example : sumFrame true (toText fun _ => .err) [.int 2, .null, .int 5, .int 2] = .ok (.int 7) := by rfl
example : IntColumn [.int 2, .null, .int 5] := by
  intro v hv; simp at hv; rcases hv with rfl | rfl | rfl
  · exact .inr ⟨2, rfl, by decide⟩
  · exact .inl rfl
  · exact .inr ⟨5, rfl, by decide⟩

end Verif.WindowAgg
