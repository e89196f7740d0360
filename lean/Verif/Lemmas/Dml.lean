import Verif.Model.Dml
import Verif.Lemmas.QueryCongr
import Verif.Lemmas.QueryText

/-!
# Expressions with plain names

An expression of a DML statement has its value under plain names if no subquery has two columns of one name, or a column with
the name of an outer column it refers to.
-/

namespace Verif.Query

set_option linter.unusedSectionVars false

/-- A subquery has no two columns of one name, and none with the name of a column of the target it refers to. -/
def clearS (tcols : List Col) (s : Scan) : Prop :=
  ((intS s).map (·.name)).Nodup ∧ ∀ c ∈ refS s, c ∈ tcols → ∀ d ∈ intS s, d.name ≠ c.name

mutual
/-- This holds for all subqueries of an expression. -/
def clearE (tcols : List Col) : Expr → Prop
  | .col _ => True
  | .lit _ => True
  | .call _ args => clearEs tcols args
  | .scalar s => clearS tcols s
  | .exists_ s => clearS tcols s
  | .inq e s => clearE tcols e ∧ clearS tcols s
  | .arr s => clearS tcols s

def clearEs (tcols : List Col) : Exprs → Prop
  | .nil => True
  | .cons e es => clearE tcols e ∧ clearEs tcols es
end

theorem starred_plain (c : Col) : starred (plain c) = true := by simp [starred, plain]

section
variable {V : Type} [DecidableEq V] {S : Sem V} {db : Db V}

theorem dist_plain {cs : List Col} (h : (cs.map (·.name)).Nodup) : Dist plain cs := by
  have : cs.map plain = (cs.map (·.name)).map Nm.raw := by simp [plain]
  rw [Dist, this, List.nodup_iff_pairwise_ne, List.pairwise_map]
  exact (List.nodup_iff_pairwise_ne.1 h).imp fun h e => h (Nm.raw.inj e)

theorem rowEnv_raw {names : List (List Char)} {r : List V} {n : List Char} : rowEnv names r (.raw n) = lk names r n := by
  simp only [rowEnv, bindR, lk_raw]
  cases lk names r n <;> rfl

/-- The columns of the target, as far as they are referred to. -/
def only (env : Env V) (cs : List Col) : Env V := fun c => if c ∈ cs then env c else none

theorem only_agree (env : Env V) (ts : List TName) (cs : List Col) : Agree db db env (only env cs) ts cs :=
  ⟨fun _ _ => rfl, fun c hc => by simp [only, hc]⟩

theorem only_ctx {tcols cs ds : List Col} {ts : List TName} (hn : (ds.map (·.name)).Nodup)
    (ha : ∀ c ∈ cs, c ∈ tcols → ∀ d ∈ ds, d.name ≠ c.name) (names : List (List Char)) (r : List V) :
    Ctx plain (fun _ => none) (fun _ => none) (fun _ => none) (only (tenv names tcols r) cs) (rowEnv names r) ds ts where
  rw := fun n rows h => by simp at h
  no := fun t h => rfl
  ref := fun c v h => by
    simp only [only, tenv] at h
    split at h
    · split at h
      · rw [plain, rowEnv_raw]
        exact h
      · simp at h
    · simp at h
  away := fun d hd c hc e => by
    simp only [only, tenv] at hd
    split at hd
    · rename_i h1
      split at hd
      · rename_i h2
        exact ha d h1 h2 c hc (Nm.raw.inj e)
      · simp at hd
    · simp at hd
  dist := dist_plain hn

theorem plain_sub {tcols : List Col} {e : Expr} {x : SExpr} (hx : fmtE plain (fun _ => none) e = some x)
    (hok : okE plain (fun _ => none) e) (hn : ((intE e).map (·.name)).Nodup)
    (ha : ∀ c ∈ refE e, c ∈ tcols → ∀ d ∈ intE e, d.name ≠ c.name) :
    ∃ N, ∀ n, N ≤ n → ∀ names r v, evalE S db (fun _ => none) (tenv names tcols r) e = some v →
      evalX S (evalQ S db n (fun _ => none)) (rowEnv names r) x = some v := by
  obtain ⟨N, hN⟩ := soundE S db plain starred_plain e (fun _ => none) x hx hok
  refine ⟨N, fun n hn' names r v hv => ?_⟩
  rw [congrE (fun _ => none) e (only_agree (db := db) (tenv names tcols r) (tabE e) (refE e))] at hv
  exact hN n hn' _ _ _ _ (only_ctx hn ha names r) v hv

theorem plain_scan {tcols : List Col} {s : Scan} {t : List Tok} (ht : fmtS plain (fun _ => none) s = some t)
    (hok : okS plain (fun _ => none) s) (hq : isQuery s = true) (hc : clearS tcols s) :
    ∃ N, ∀ n, N ≤ n → ∀ names r rows, evalS S db (fun _ => none) (tenv names tcols r) s = some rows →
      evalQ S db n (fun _ => none) (rowEnv names r) t = some (s.cols.map plain, rows) := by
  obtain ⟨N, hN⟩ := soundS S db plain starred_plain s (fun _ => none) t ht hok
  refine ⟨N, fun n hn' names r v hv => ?_⟩
  rw [congrS (fun _ => none) s (only_agree (db := db) (tenv names tcols r) (tabS s) (refS s))] at hv
  exact (hN n hn' _ _ _ _ (only_ctx hc.1 hc.2 names r) v hv).den.1 (isQuery_sel ht hq)

mutual
/-- The text of an expression has its value. -/
theorem plainE (S : Sem V) (db : Db V) (tcols : List Col) : ∀ (e : Expr) {x : SExpr}, fmtE plain (fun _ => none) e = some x →
    okE plain (fun _ => none) e → clearE tcols e →
    ∃ N, ∀ n, N ≤ n → ∀ names r v, evalE S db (fun _ => none) (tenv names tcols r) e = some v →
      evalX S (evalQ S db n (fun _ => none)) (rowEnv names r) x = some v
  | .col c, x, hx, hok, _ => plain_sub hx hok (by simp [intE]) fun _ _ _ d hd => by simp [intE] at hd
  | .lit k, x, hx, hok, _ => plain_sub hx hok (by simp [intE]) fun _ _ _ d hd => by simp [intE] at hd
  | .call f args, x, hx, hok, hc => by
    simp only [fmtE, Option.map_eq_some_iff] at hx
    obtain ⟨xs, hxs, rfl⟩ := hx
    obtain ⟨N, hN⟩ := plainEs S db tcols args hxs hok hc
    refine ⟨N, fun n hn names r v hv => ?_⟩
    simp only [evalE, Option.map_eq_some_iff] at hv
    obtain ⟨vs, hvs, rfl⟩ := hv
    simp only [evalX, hN n hn names r vs hvs, Option.map_some]
  | .scalar s, x, hx, hok, hc => plain_sub hx hok hc.1 hc.2
  | .exists_ s, x, hx, hok, hc => plain_sub hx hok hc.1 hc.2
  | .arr s, x, hx, hok, hc => plain_sub hx hok hc.1 hc.2
  | .inq e s, x, hx, hok, hc => by
    simp only [fmtE] at hx
    split at hx
    case h_2 => simp at hx
    rename_i t y ht hy
    cases hx
    simp only [okE] at hok
    obtain ⟨N1, hN1⟩ := plainE S db tcols e hy hok.1 hc.1
    obtain ⟨N2, hN2⟩ := plain_scan (S := S) (db := db) ht hok.2.2 hok.2.1 hc.2
    refine ⟨N1 + N2, fun n hn names r v hv => ?_⟩
    simp only [evalE] at hv
    split at hv
    · rename_i u rows he1 he2
      simp only [evalX, hN1 n (by omega) names r u he1, hN2 n (by omega) names r rows he2]
      exact hv
    · simp at hv

theorem plainEs (S : Sem V) (db : Db V) (tcols : List Col) : ∀ (es : Exprs) {xs : List SExpr},
    fmtEs plain (fun _ => none) es = some xs → okEs plain (fun _ => none) es → clearEs tcols es →
    ∃ N, ∀ n, N ≤ n → ∀ names r vs, evalEs S db (fun _ => none) (tenv names tcols r) es = some vs →
      evalXs S (evalQ S db n (fun _ => none)) (rowEnv names r) xs = some vs
  | .nil, xs, hx, _, _ => by
    cases hx
    exact ⟨0, fun n _ names r vs hv => by cases hv; rfl⟩
  | .cons e es, xs, hx, hok, hc => by
    simp only [fmtEs] at hx
    split at hx
    case h_2 => simp at hx
    rename_i y ys hy hys
    cases hx
    obtain ⟨N1, hN1⟩ := plainE S db tcols e hy hok.1 hc.1
    obtain ⟨N2, hN2⟩ := plainEs S db tcols es hys hok.2 hc.2
    refine ⟨N1 + N2, fun n hn names r vs hv => ?_⟩
    simp only [evalEs] at hv
    split at hv
    · rename_i u us he1 he2
      cases hv
      simp only [evalXs, hN1 n (by omega) names r u he1, hN2 n (by omega) names r us he2]
    · simp at hv
end
end

end Verif.Query
