import Verif.Lemmas.Query

/-!
# What the rows of a query depend on

A query depends on the tables it reads and the columns it refers to only.
-/

namespace Verif.Query

mutual
/-- The columns an expression refers to, at any depth. -/
def refE : Expr → List Col
  | .col c => [c]
  | .lit _ => []
  | .call _ args => refEs args
  | .scalar s => refS s
  | .exists_ s => refS s
  | .inq e s => refE e ++ refS s
  | .arr s => refS s

def refEs : Exprs → List Col
  | .nil => []
  | .cons e es => refE e ++ refEs es

def refO : OExpr → List Col
  | .none => []
  | .some e => refE e

def refCs : CExprs → List Col
  | .nil => []
  | .cons _ e es => refE e ++ refCs es

def refAs : Aggs → List Col
  | .nil => []
  | .cons _ _ args as => refEs args ++ refAs as

def refFs : Wins → List Col
  | .nil => []
  | .cons _ _ args parts ords ws => refEs args ++ (parts ++ (ords.map (·.col) ++ refFs ws))

/-- The columns the expressions of a scan refer to, at any depth. -/
def refS : Scan → List Col
  | .single => []
  | .table _ _ => []
  | .join _ l r on => refS l ++ (refS r ++ refO on)
  | .unnest e _ _ => refE e
  | .array s e _ _ on _ => refS s ++ (refE e ++ refO on)
  | .filter s e => refS s ++ refE e
  | .project s exprs _ => refS s ++ refCs exprs
  | .agg s groups aggs _ => refS s ++ (refCs groups ++ refAs aggs)
  | .setop _ items _ => refIs items
  | .order s _ _ => refS s
  | .limit s _ _ _ => refS s
  | .with_ es body => refWs es ++ refS body
  | .ref _ _ => []
  | .gsets s groups aggs _ _ _ => refS s ++ (refCs groups ++ refAs aggs)
  | .win s ws _ => refS s ++ refFs ws

def refIs : Items → List Col
  | .nil => []
  | .cons s _ is => refS s ++ refIs is

def refWs : Entries → List Col
  | .nil => []
  | .cons _ s es => refS s ++ refWs es
end

section
variable {V : Type} [DecidableEq V] {S : Sem V} {db db' : Db V}

/-- The databases and outer rows agree on these tables and columns. -/
structure Agree (db db' : Db V) (env env' : Env V) (ts : List TName) (cs : List Col) : Prop where
  tabs : ∀ t ∈ ts, db t = db' t
  cols : ∀ c ∈ cs, env c = env' c

variable {env env' : Env V}

theorem Agree.sub {ts ts' : List TName} {cs cs' : List Col} (h : Agree db db' env env' ts cs) (ht : ∀ t ∈ ts', t ∈ ts)
    (hc : ∀ c ∈ cs', c ∈ cs) : Agree db db' env env' ts' cs' :=
  ⟨fun t h' => h.tabs t (ht t h'), fun c h' => h.cols c (hc c h')⟩

theorem Agree.left {a b : List TName} {c d : List Col} (h : Agree db db' env env' (a ++ b) (c ++ d)) :
    Agree db db' env env' a c := h.sub (fun _ h => List.mem_append_left _ h) fun _ h => List.mem_append_left _ h

theorem Agree.right {a b : List TName} {c d : List Col} (h : Agree db db' env env' (a ++ b) (c ++ d)) :
    Agree db db' env env' b d := h.sub (fun _ h => List.mem_append_right _ h) fun _ h => List.mem_append_right _ h

theorem Agree.bind {ts : List TName} {cs : List Col} (h : Agree db db' env env' ts cs) (hs : List Col) (a : List V) :
    Agree db db' (bindR hs a env) (bindR hs a env') ts cs :=
  ⟨h.tabs, fun c hc => by simp only [bindR, h.cols c hc]⟩

mutual
theorem congrE (w : WEnv V) : ∀ (e : Expr) {env env' : Env V}, Agree db db' env env' (tabE e) (refE e) →
    evalE S db w env e = evalE S db' w env' e
  | .col c, env, env', h => by simp only [evalE]; exact h.cols c (by simp [refE])
  | .lit k, _, _, _ => by simp only [evalE]
  | .call f args, _, _, h => by simp only [evalE, congrEs w args h]
  | .scalar s, _, _, h => by simp only [evalE, congrS w s h]
  | .exists_ s, _, _, h => by simp only [evalE, congrS w s h]
  | .inq e s, _, _, h => by
    simp only [tabE, refE] at h
    simp only [evalE, congrE w e h.left, congrS w s h.right]
  | .arr s, _, _, h => by simp only [evalE, congrS w s h]

theorem congrEs (w : WEnv V) : ∀ (es : Exprs) {env env' : Env V}, Agree db db' env env' (tabEs es) (refEs es) →
    evalEs S db w env es = evalEs S db' w env' es
  | .nil, _, _, _ => by simp only [evalEs]
  | .cons e es, _, _, h => by
    simp only [tabEs, refEs] at h
    simp only [evalEs, congrE w e h.left, congrEs w es h.right]

theorem congrO (w : WEnv V) : ∀ (o : OExpr) {env env' : Env V}, Agree db db' env env' (tabO o) (refO o) →
    evalO S db w env o = evalO S db' w env' o
  | .none, _, _, _ => by simp only [evalO]
  | .some e, _, _, h => by simp only [evalO, congrE w e h]

theorem congrCs (w : WEnv V) : ∀ (es : CExprs) {env env' : Env V}, Agree db db' env env' (tabCs es) (refCs es) →
    evalCs S db w env es = evalCs S db' w env' es
  | .nil, _, _, _ => by simp only [evalCs]
  | .cons _ e es, _, _, h => by
    simp only [tabCs, refCs] at h
    simp only [evalCs, congrE w e h.left, congrCs w es h.right]

theorem congrAs (w : WEnv V) : ∀ (as : Aggs) {α : Type} (L : List α) {f g : α → Env V},
    (∀ a, Agree db db' (f a) (g a) (tabAs as) (refAs as)) →
    evalAs S db w (L.map f) as = evalAs S db' w (L.map g) as
  | .nil, _, _, _, _, _ => by simp only [evalAs]
  | .cons _ k args as, α, L, f, g, h => by
    simp only [tabAs, refAs] at h
    have h1 : mapO (fun env => evalEs S db w env args) (L.map f) = mapO (fun env => evalEs S db' w env args) (L.map g) := by
      induction L with
      | nil => rfl
      | cons a L ih => simp only [List.map_cons, mapO, ih, congrEs w args (h a).left]
    simp only [evalAs, h1, congrAs w as L fun a => (h a).right]

theorem congrFs (w : WEnv V) : ∀ (ws : Wins) (i : Nat) {α : Type} (L : List α) {f g : α → Env V},
    (∀ a, Agree db db' (f a) (g a) (tabFs ws) (refFs ws)) →
    evalFs S db w (L.map f) i ws = evalFs S db' w (L.map g) i ws
  | .nil, _, _, _, _, _, _ => by simp only [evalFs]
  | .cons _ k args parts ords ws, i, α, L, f, g, h => by
    simp only [tabFs, refFs] at h
    have hm : ∀ a, ∀ cs : List Col, (∀ c ∈ cs, c ∈ parts ++ (ords.map (·.col) ++ refFs ws)) → mapO (f a) cs = mapO (g a) cs := by
      intro a cs
      induction cs with
      | nil => intro _; rfl
      | cons c cs ih =>
        intro hc
        have h1 : f a c = g a c := (h a).right.cols c (hc c (List.mem_cons_self ..))
        simp only [mapO, h1, ih fun d hd => hc d (List.mem_cons_of_mem _ hd)]
    have hp := fun a => hm a parts fun c hc => List.mem_append_left _ hc
    have ho := fun a => hm a (ords.map (·.col)) fun c hc => List.mem_append_right _ (List.mem_append_left _ hc)
    have hE := fun a => congrEs w args (h a).left
    have h2 := congrFs w ws i L (f := f) (g := g) fun a => (h a).sub
      (fun _ h => List.mem_append_right _ h) fun _ h => by simp [h]
    simp only [mapO_map] at ho
    simp only [evalFs, mapO_map, hE, hp, ho, h2]

theorem congrS (w : WEnv V) : ∀ (s : Scan) {env env' : Env V}, Agree db db' env env' (tabS s) (refS s) →
    evalS S db w env s = evalS S db' w env' s
  | .single, _, _, _ => by simp only [evalS]
  | .table t cols, _, _, h => by simp only [evalS, h.tabs t (by simp [tabS])]
  | .join k l r on, _, _, h => by
    simp only [tabS, refS] at h
    have h3 := fun a => congrO w on (h.right.right.bind (l.cols ++ r.cols) a)
    simp only [evalS, congrS w l h.left, congrS w r h.right.left, h3]
  | .unnest e _ _, _, _, h => by simp only [evalS, congrE w e h]
  | .array s e elem off on outer, _, _, h => by
    simp only [tabS, refS] at h
    have h2 := fun a => congrE w e (h.right.left.bind s.cols a)
    have h3 := fun a => congrO w on (h.right.right.bind (s.cols ++ elem :: off.toList) a)
    simp only [evalS, congrS w s h.left, h2, h3]
  | .filter s e, _, _, h => by
    simp only [tabS, refS] at h
    have h2 := fun a => congrE w e (h.right.bind s.cols a)
    simp only [evalS, congrS w s h.left, h2]
  | .project s exprs _, _, _, h => by
    simp only [tabS, refS] at h
    have h2 := fun a => congrCs w exprs (h.right.bind s.cols a)
    simp only [evalS, congrS w s h.left, h2]
  | .agg s groups aggs _, env, env', h => by
    simp only [tabS, refS] at h
    have h2 := fun a => congrCs w groups (h.right.left.bind s.cols a)
    have h3 := fun (L : List (List V)) => congrAs w aggs L (f := fun a => bindR s.cols a env)
      (g := fun a => bindR s.cols a env') fun a => h.right.right.bind s.cols a
    simp only [evalS, congrS w s h.left, h2, h3]
  | .setop o items _, _, _, h => by simp only [evalS, congrIs w items h]
  | .order s _ _, _, _, h => by simp only [evalS, congrS w s h]
  | .limit s _ _ _, _, _, h => by simp only [evalS, congrS w s h]
  | .with_ es body, env, env', h => by
    simp only [tabS, refS] at h
    have h2 := fun w' => congrS w' body h.right
    simp only [evalS, congrWs w es h.left, h2]
  | .ref _ _, _, _, _ => by simp only [evalS]
  | .gsets s groups aggs _ _ _, env, env', h => by
    simp only [tabS, refS] at h
    have h2 := fun a => congrCs w groups (h.right.left.bind s.cols a)
    have h3 := fun (L : List (List V)) => congrAs w aggs L (f := fun a => bindR s.cols a env)
      (g := fun a => bindR s.cols a env') fun a => h.right.right.bind s.cols a
    simp only [evalS, congrS w s h.left, h2, h3]
  | .win s ws _, env, env', h => by
    simp only [tabS, refS] at h
    have h3 := fun i (L : List (List V)) => congrFs w ws i L (f := fun a => bindR s.cols a env)
      (g := fun a => bindR s.cols a env') fun a => h.right.bind s.cols a
    simp only [evalS, congrS w s h.left, h3]

theorem congrIs (w : WEnv V) : ∀ (is : Items) {env env' : Env V}, Agree db db' env env' (tabIs is) (refIs is) →
    evalIs S db w env is = evalIs S db' w env' is
  | .nil, _, _, _ => by simp only [evalIs]
  | .cons s _ is, _, _, h => by
    simp only [tabIs, refIs] at h
    simp only [evalIs, congrS w s h.left, congrIs w is h.right]

theorem congrWs (w : WEnv V) : ∀ (es : Entries) {env env' : Env V}, Agree db db' env env' (tabWs es) (refWs es) →
    evalWs S db w env es = evalWs S db' w env' es
  | .nil, _, _, _ => by simp only [evalWs]
  | .cons n s es, _, _, h => by
    simp only [tabWs, refWs] at h
    have h2 := fun w' => congrWs w' es h.right
    simp only [evalWs, congrS w s h.left, h2]
end
end

end Verif.Query
