import Verif.Model.Logic
import Verif.Model.Registry

/-!
# What the functions do with NULL (internal/function_bind.go)

Every scalar function is called through a bind function, which looks at the number of arguments and at NULLs before it takes the
arguments apart.
-/

namespace Verif.Nulls

open Go Verif.Val Verif.Registry

/-- The check of the number of arguments. -/
inductive Count where
  | any
  | of (ns : List Nat)
  | atLeast (n : Nat)
  | even

def Count.ok : Count → Nat → Bool
  | .any, _ => true
  | .of ns, n => decide (n ∈ ns)
  | .atLeast m, n => decide (m ≤ n)
  | .even, n => n % 2 == 0

/-- What a bind function does with NULLs, in turn: `any r` is `existsNull(args)` with the result `r`, `at i r` that of a NULL as
argument `i`.  The result is a panic where a method such as `ToInt64` is called on a NULL, which is Go's nil, and an error where a type
assertion fails.  (The arguments that are not NULL are of the types of the function and converted without errors.) -/
inductive Step where
  | any (r : Res Val)
  | at (i : Nat) (r : Res Val)

/-- A bind function: its name, the check and the steps. -/
structure Bind where
  name : Name
  count : Count
  steps : List Step

/-- Whether an argument is there and NULL. -/
def nullAt (args : List Val) (i : Nat) : Bool := match args[i]? with
  | some v => v.isNull
  | none => false

/-- The steps, then the function itself. -/
def run (body : List Val → Res Val) (args : List Val) : List Step → Res Val
  | [] => body args
  | .any r :: ss => if Logic.existsNull args then r else run body args ss
  | .at i r :: ss => if nullAt args i then r else run body args ss

/-- The bind functions of scalar functions, generated from the source. -/
def binds : List Bind := [
  /- function_bind.go:159-164 -/ ⟨['b','i','n','d','A','d','d'], .any, [.any (.ok .null)]⟩,
  /- function_bind.go:166-171 -/ ⟨['b','i','n','d','S','u','b'], .any, [.any (.ok .null)]⟩,
  /- function_bind.go:173-178 -/ ⟨['b','i','n','d','M','u','l'], .any, [.any (.ok .null)]⟩,
  /- function_bind.go:180-185 -/ ⟨['b','i','n','d','O','p','D','i','v'], .any, [.any (.ok .null)]⟩,
  /- function_bind.go:187-192 -/ ⟨['b','i','n','d','E','q','u','a','l'], .any, [.any (.ok .null)]⟩,
  /- function_bind.go:194-199 -/ ⟨['b','i','n','d','N','o','t','E','q','u','a','l'], .any, [.any (.ok .null)]⟩,
  /- function_bind.go:201-206 -/ ⟨['b','i','n','d','G','r','e','a','t','e','r'], .any, [.any (.ok .null)]⟩,
  /- function_bind.go:208-213 -/ ⟨['b','i','n','d','G','r','e','a','t','e','r','O','r','E','q','u','a','l'], .any, [.any (.ok .null)]⟩,
  /- function_bind.go:215-220 -/ ⟨['b','i','n','d','L','e','s','s'], .any, [.any (.ok .null)]⟩,
  /- function_bind.go:222-227 -/ ⟨['b','i','n','d','L','e','s','s','O','r','E','q','u','a','l'], .any, [.any (.ok .null)]⟩,
  /- function_bind.go:229-234 -/ ⟨['b','i','n','d','B','i','t','N','o','t'], .any, [.any (.ok .null)]⟩,
  /- function_bind.go:236-241 -/ ⟨['b','i','n','d','B','i','t','L','e','f','t','S','h','i','f','t'], .any, [.any (.ok .null)]⟩,
  /- function_bind.go:243-248 -/ ⟨['b','i','n','d','B','i','t','R','i','g','h','t','S','h','i','f','t'], .any, [.any (.ok .null)]⟩,
  /- function_bind.go:250-255 -/ ⟨['b','i','n','d','B','i','t','A','n','d'], .any, [.any (.ok .null)]⟩,
  /- function_bind.go:257-262 -/ ⟨['b','i','n','d','B','i','t','O','r'], .any, [.any (.ok .null)]⟩,
  /- function_bind.go:264-269 -/ ⟨['b','i','n','d','B','i','t','X','o','r'], .any, [.any (.ok .null)]⟩,
  /- function_bind.go:271-276 -/ ⟨['b','i','n','d','I','n','A','r','r','a','y'], .any, [.any (.ok (.bool false))]⟩,
  /- function_bind.go:278-287 -/ ⟨['b','i','n','d','S','t','r','u','c','t','F','i','e','l','d'], .any, [.any (.ok .null)]⟩,
  /- function_bind.go:289-302 -/ ⟨['b','i','n','d','J','s','o','n','F','i','e','l','d'], .any, [.any (.ok .null)]⟩,
  /- function_bind.go:304-313 -/ ⟨['b','i','n','d','S','u','b','s','c','r','i','p','t'], .any, [.any (.ok .null)]⟩,
  /- function_bind.go:315-324 -/ ⟨['b','i','n','d','A','r','r','a','y','A','t','O','f','f','s','e','t'], .any, [.any (.ok .null)]⟩,
  /- function_bind.go:337-346 -/ ⟨['b','i','n','d','A','r','r','a','y','A','t','O','r','d','i','n','a','l'], .any, [.any (.ok .null)]⟩,
  /- function_bind.go:326-335 -/ ⟨['b','i','n','d','S','a','f','e','A','r','r','a','y','A','t','O','f','f','s','e','t'], .any, [.any (.ok .null)]⟩,
  /- function_bind.go:348-357 -/ ⟨['b','i','n','d','S','a','f','e','A','r','r','a','y','A','t','O','r','d','i','n','a','l'], .any, [.any (.ok .null)]⟩,
  /- function_bind.go:359-361 -/ ⟨['b','i','n','d','I','s','D','i','s','t','i','n','c','t','F','r','o','m'], .any, []⟩,
  /- function_bind.go:363-365 -/ ⟨['b','i','n','d','I','s','N','o','t','D','i','s','t','i','n','c','t','F','r','o','m'], .any, []⟩,
  /- function_bind.go:401-403 -/ ⟨['b','i','n','d','S','e','s','s','i','o','n','U','s','e','r'], .any, []⟩,
  /- function_bind.go:405-407 -/ ⟨['b','i','n','d','G','e','n','e','r','a','t','e','U','U','I','D'], .any, []⟩,
  /- function_bind.go:409-418 -/ ⟨['b','i','n','d','E','r','r','o','r'], .any, [.at 0 (.ok .null)]⟩,
  /- function_bind.go:1887-1921 -/ ⟨['b','i','n','d','C','u','r','r','e','n','t','D','a','t','e'], .any, []⟩,
  /- function_bind.go:367-384 -/ ⟨['b','i','n','d','E','x','t','r','a','c','t'], .any, [.any (.ok .null)]⟩,
  /- function_bind.go:386-399 -/ ⟨['b','i','n','d','E','x','t','r','a','c','t','D','a','t','e'], .any, [.any (.ok .null)]⟩,
  /- function_bind.go:1923-1928 -/ ⟨['b','i','n','d','D','a','t','e'], .any, [.any (.ok .null)]⟩,
  /- function_bind.go:1930-1950 -/ ⟨['b','i','n','d','D','a','t','e','A','d','d'], .of [3], [.any (.ok .null)]⟩,
  /- function_bind.go:1952-1972 -/ ⟨['b','i','n','d','D','a','t','e','S','u','b'], .of [3], [.any (.ok .null)]⟩,
  /- function_bind.go:1974-1994 -/ ⟨['b','i','n','d','D','a','t','e','D','i','f','f'], .of [3], [.any (.ok .null)]⟩,
  /- function_bind.go:1996-2012 -/ ⟨['b','i','n','d','D','a','t','e','T','r','u','n','c'], .of [2], [.any (.ok .null)]⟩,
  /- function_bind.go:2014-2026 -/ ⟨['b','i','n','d','D','a','t','e','F','r','o','m','U','n','i','x','D','a','t','e'], .of [1], [.any (.ok .null)]⟩,
  /- function_bind.go:2028-2044 -/ ⟨['b','i','n','d','F','o','r','m','a','t','D','a','t','e'], .of [2], [.any (.ok .null)]⟩,
  /- function_bind.go:2046-2066 -/ ⟨['b','i','n','d','L','a','s','t','D','a','y'], .of [1, 2], [.any (.ok .null)]⟩,
  /- function_bind.go:2068-2084 -/ ⟨['b','i','n','d','P','a','r','s','e','D','a','t','e'], .of [2], [.any (.ok .null)]⟩,
  /- function_bind.go:2086-2098 -/ ⟨['b','i','n','d','U','n','i','x','D','a','t','e'], .of [1], [.any (.ok .null)]⟩,
  /- function_bind.go:2100-2134 -/ ⟨['b','i','n','d','C','u','r','r','e','n','t','D','a','t','e','t','i','m','e'], .any, []⟩,
  /- function_bind.go:2136-2141 -/ ⟨['b','i','n','d','D','a','t','e','t','i','m','e'], .any, [.any (.ok .null)]⟩,
  /- function_bind.go:2143-2163 -/ ⟨['b','i','n','d','D','a','t','e','t','i','m','e','A','d','d'], .of [3], [.any (.ok .null)]⟩,
  /- function_bind.go:2165-2185 -/ ⟨['b','i','n','d','D','a','t','e','t','i','m','e','S','u','b'], .of [3], [.any (.ok .null)]⟩,
  /- function_bind.go:2187-2207 -/ ⟨['b','i','n','d','D','a','t','e','t','i','m','e','D','i','f','f'], .of [3], [.any (.ok .null)]⟩,
  /- function_bind.go:2209-2225 -/ ⟨['b','i','n','d','D','a','t','e','t','i','m','e','T','r','u','n','c'], .of [2], [.any (.ok .null)]⟩,
  /- function_bind.go:2227-2243 -/ ⟨['b','i','n','d','F','o','r','m','a','t','D','a','t','e','t','i','m','e'], .of [2], [.any (.ok .null)]⟩,
  /- function_bind.go:2245-2261 -/ ⟨['b','i','n','d','P','a','r','s','e','D','a','t','e','t','i','m','e'], .of [2], [.any (.ok .null)]⟩,
  /- function_bind.go:2263-2297 -/ ⟨['b','i','n','d','C','u','r','r','e','n','t','T','i','m','e'], .any, []⟩,
  /- function_bind.go:2299-2304 -/ ⟨['b','i','n','d','T','i','m','e'], .any, [.any (.ok .null)]⟩,
  /- function_bind.go:2306-2326 -/ ⟨['b','i','n','d','T','i','m','e','A','d','d'], .of [3], [.any (.ok .null)]⟩,
  /- function_bind.go:2328-2348 -/ ⟨['b','i','n','d','T','i','m','e','S','u','b'], .of [3], [.any (.ok .null)]⟩,
  /- function_bind.go:2350-2370 -/ ⟨['b','i','n','d','T','i','m','e','D','i','f','f'], .of [3], [.any (.ok .null)]⟩,
  /- function_bind.go:2372-2388 -/ ⟨['b','i','n','d','T','i','m','e','T','r','u','n','c'], .of [2], [.any (.ok .null)]⟩,
  /- function_bind.go:2390-2406 -/ ⟨['b','i','n','d','F','o','r','m','a','t','T','i','m','e'], .of [2], [.any (.ok .null)]⟩,
  /- function_bind.go:2408-2424 -/ ⟨['b','i','n','d','P','a','r','s','e','T','i','m','e'], .of [2], [.any (.ok .null)]⟩,
  /- function_bind.go:2426-2460 -/ ⟨['b','i','n','d','C','u','r','r','e','n','t','T','i','m','e','s','t','a','m','p'], .any, []⟩,
  /- function_bind.go:2462-2486 -/ ⟨['b','i','n','d','S','t','r','i','n','g'], .of [1, 2], [.any (.ok .null)]⟩,
  /- function_bind.go:2488-2504 -/ ⟨['b','i','n','d','T','i','m','e','s','t','a','m','p'], .of [1, 2], [.any (.ok .null)]⟩,
  /- function_bind.go:2506-2526 -/ ⟨['b','i','n','d','T','i','m','e','s','t','a','m','p','A','d','d'], .of [3], [.any (.ok .null)]⟩,
  /- function_bind.go:2528-2548 -/ ⟨['b','i','n','d','T','i','m','e','s','t','a','m','p','S','u','b'], .of [3], [.any (.ok .null)]⟩,
  /- function_bind.go:2550-2570 -/ ⟨['b','i','n','d','T','i','m','e','s','t','a','m','p','D','i','f','f'], .of [3], [.any (.ok .null)]⟩,
  /- function_bind.go:2572-2596 -/ ⟨['b','i','n','d','T','i','m','e','s','t','a','m','p','T','r','u','n','c'], .of [2, 3], [.any (.ok .null)]⟩,
  /- function_bind.go:2598-2622 -/ ⟨['b','i','n','d','F','o','r','m','a','t','T','i','m','e','s','t','a','m','p'], .of [2, 3], [.any (.ok .null)]⟩,
  /- function_bind.go:2624-2644 -/ ⟨['b','i','n','d','P','a','r','s','e','T','i','m','e','s','t','a','m','p'], .any, [.any (.ok .null)]⟩,
  /- function_bind.go:2646-2658 -/ ⟨['b','i','n','d','T','i','m','e','s','t','a','m','p','S','e','c','o','n','d','s'], .of [1], [.any (.ok .null)]⟩,
  /- function_bind.go:2660-2672 -/ ⟨['b','i','n','d','T','i','m','e','s','t','a','m','p','M','i','l','l','i','s'], .of [1], [.any (.ok .null)]⟩,
  /- function_bind.go:2674-2686 -/ ⟨['b','i','n','d','T','i','m','e','s','t','a','m','p','M','i','c','r','o','s'], .of [1], [.any (.ok .null)]⟩,
  /- function_bind.go:2688-2700 -/ ⟨['b','i','n','d','U','n','i','x','S','e','c','o','n','d','s'], .of [1], [.any (.ok .null)]⟩,
  /- function_bind.go:2702-2714 -/ ⟨['b','i','n','d','U','n','i','x','M','i','l','l','i','s'], .of [1], [.any (.ok .null)]⟩,
  /- function_bind.go:2716-2728 -/ ⟨['b','i','n','d','U','n','i','x','M','i','c','r','o','s'], .of [1], [.any (.ok .null)]⟩,
  /- function_bind.go:427-432 -/ ⟨['b','i','n','d','L','i','k','e'], .any, [.any (.ok (.bool false))]⟩,
  /- function_bind.go:434-439 -/ ⟨['b','i','n','d','B','e','t','w','e','e','n'], .any, [.any (.ok (.bool false))]⟩,
  /- function_bind.go:441-443 -/ ⟨['b','i','n','d','I','n'], .any, []⟩,
  /- function_bind.go:445-447 -/ ⟨['b','i','n','d','I','s','N','u','l','l'], .any, []⟩,
  /- function_bind.go:449-454 -/ ⟨['b','i','n','d','I','s','T','r','u','e'], .any, [.any (.ok .null)]⟩,
  /- function_bind.go:456-461 -/ ⟨['b','i','n','d','I','s','F','a','l','s','e'], .any, [.any (.ok .null)]⟩,
  /- function_bind.go:463-468 -/ ⟨['b','i','n','d','N','o','t'], .any, [.any (.ok .null)]⟩,
  /- function_bind.go:470-472 -/ ⟨['b','i','n','d','A','n','d'], .any, []⟩,
  /- function_bind.go:474-476 -/ ⟨['b','i','n','d','O','r'], .any, []⟩,
  /- function_bind.go:478-483 -/ ⟨['b','i','n','d','C','o','a','l','e','s','c','e'], .atLeast 1, []⟩,
  /- function_bind.go:485-490 -/ ⟨['b','i','n','d','I','f'], .of [3], []⟩,
  /- function_bind.go:492-497 -/ ⟨['b','i','n','d','I','f','N','u','l','l'], .of [2], []⟩,
  /- function_bind.go:499-504 -/ ⟨['b','i','n','d','N','u','l','l','I','f'], .of [2], []⟩,
  /- function_bind.go:951-959 -/ ⟨['b','i','n','d','L','e','n','g','t','h'], .of [1], [.at 0 (.ok .null)]⟩,
  /- function_bind.go:506-531 -/ ⟨['b','i','n','d','C','a','s','t'], .of [4], [.at 1 .panic, .at 2 .panic, .at 3 .panic]⟩,
  /- function_bind.go:533-543 -/ ⟨['b','i','n','d','I','n','t','e','r','v','a','l'], .any, [.at 0 .panic, .at 1 .panic]⟩,
  /- function_bind.go:545-571 -/ ⟨['b','i','n','d','M','a','k','e','I','n','t','e','r','v','a','l'], .any, [.at 0 .panic, .at 1 .panic, .at 2 .panic, .at 3 .panic, .at 4 .panic, .at 5 .panic]⟩,
  /- function_bind.go:573-579 -/ ⟨['b','i','n','d','J','u','s','t','i','f','y','D','a','y','s'], .any, [.at 0 .err]⟩,
  /- function_bind.go:581-587 -/ ⟨['b','i','n','d','J','u','s','t','i','f','y','H','o','u','r','s'], .any, [.at 0 .err]⟩,
  /- function_bind.go:589-595 -/ ⟨['b','i','n','d','J','u','s','t','i','f','y','I','n','t','e','r','v','a','l'], .any, [.at 0 .err]⟩,
  /- function_bind.go:597-603 -/ ⟨['b','i','n','d','P','a','r','s','e','N','u','m','e','r','i','c'], .any, [.at 0 .panic]⟩,
  /- function_bind.go:605-611 -/ ⟨['b','i','n','d','P','a','r','s','e','B','i','g','N','u','m','e','r','i','c'], .any, [.at 0 .panic]⟩,
  /- function_bind.go:613-625 -/ ⟨['b','i','n','d','F','a','r','m','F','i','n','g','e','r','p','r','i','n','t'], .of [1], [.any (.ok .null)]⟩,
  /- function_bind.go:627-639 -/ ⟨['b','i','n','d','M','D','5'], .of [1], [.any (.ok .null)]⟩,
  /- function_bind.go:641-653 -/ ⟨['b','i','n','d','S','h','a','1'], .of [1], [.any (.ok .null)]⟩,
  /- function_bind.go:655-667 -/ ⟨['b','i','n','d','S','h','a','2','5','6'], .of [1], [.any (.ok .null)]⟩,
  /- function_bind.go:669-681 -/ ⟨['b','i','n','d','S','h','a','5','1','2'], .of [1], [.any (.ok .null)]⟩,
  /- function_bind.go:683-698 -/ ⟨['b','i','n','d','A','s','c','i','i'], .of [1], [.at 0 (.ok .null)]⟩,
  /- function_bind.go:700-712 -/ ⟨['b','i','n','d','B','y','t','e','L','e','n','g','t','h'], .of [1], [.at 0 (.ok .null)]⟩,
  /- function_bind.go:714-726 -/ ⟨['b','i','n','d','C','h','a','r','L','e','n','g','t','h'], .of [1], [.at 0 (.ok .null)]⟩,
  /- function_bind.go:728-740 -/ ⟨['b','i','n','d','C','h','r'], .of [1], [.at 0 (.ok .null)]⟩,
  /- function_bind.go:742-754 -/ ⟨['b','i','n','d','C','o','d','e','P','o','i','n','t','s','T','o','B','y','t','e','s'], .of [1], [.at 0 (.ok .null)]⟩,
  /- function_bind.go:756-768 -/ ⟨['b','i','n','d','C','o','d','e','P','o','i','n','t','s','T','o','S','t','r','i','n','g'], .of [1], [.at 0 (.ok .null)]⟩,
  /- function_bind.go:770-789 -/ ⟨['b','i','n','d','C','o','l','l','a','t','e'], .of [2], [.at 0 (.ok .null), .at 1 .err]⟩,
  /- function_bind.go:791-799 -/ ⟨['b','i','n','d','C','o','n','c','a','t'], .atLeast 1, [.any (.ok .null)]⟩,
  /- function_bind.go:801-813 -/ ⟨['b','i','n','d','C','o','n','t','a','i','n','s','S','u','b','s','t','r'], .any, [.at 1 .err, .any (.ok .null)]⟩,
  /- function_bind.go:815-823 -/ ⟨['b','i','n','d','E','n','d','s','W','i','t','h'], .of [2], [.any (.ok .null)]⟩,
  /- function_bind.go:825-840 -/ ⟨['b','i','n','d','F','o','r','m','a','t'], .atLeast 1, [.any (.ok .null)]⟩,
  /- function_bind.go:842-854 -/ ⟨['b','i','n','d','F','r','o','m','B','a','s','e','3','2'], .of [1], [.at 0 (.ok .null)]⟩,
  /- function_bind.go:856-868 -/ ⟨['b','i','n','d','F','r','o','m','B','a','s','e','6','4'], .of [1], [.at 0 (.ok .null)]⟩,
  /- function_bind.go:870-882 -/ ⟨['b','i','n','d','F','r','o','m','H','e','x'], .of [1], [.at 0 (.ok .null)]⟩,
  /- function_bind.go:884-907 -/ ⟨['b','i','n','d','I','n','i','t','c','a','p'], .of [1, 2], [.any (.ok .null)]⟩,
  /- function_bind.go:909-935 -/ ⟨['b','i','n','d','I','n','s','t','r'], .of [2, 3, 4], [.any (.ok .null)]⟩,
  /- function_bind.go:937-949 -/ ⟨['b','i','n','d','L','e','f','t'], .of [2], [.any (.ok .null)]⟩,
  /- function_bind.go:961-977 -/ ⟨['b','i','n','d','L','p','a','d'], .of [2, 3], [.any (.ok .null)]⟩,
  /- function_bind.go:979-987 -/ ⟨['b','i','n','d','L','o','w','e','r'], .of [1], [.any (.ok .null)]⟩,
  /- function_bind.go:989-1005 -/ ⟨['b','i','n','d','L','t','r','i','m'], .of [1, 2], [.any (.ok .null)]⟩,
  /- function_bind.go:1007-1027 -/ ⟨['b','i','n','d','N','o','r','m','a','l','i','z','e'], .of [1, 2], [.any (.ok .null)]⟩,
  /- function_bind.go:1029-1049 -/ ⟨['b','i','n','d','N','o','r','m','a','l','i','z','e','A','n','d','C','a','s','e','f','o','l','d'], .of [1, 2], [.any (.ok .null)]⟩,
  /- function_bind.go:1051-1064 -/ ⟨['b','i','n','d','R','e','g','e','x','p','C','o','n','t','a','i','n','s'], .any, [.any (.ok .null)]⟩,
  /- function_bind.go:1066-1091 -/ ⟨['b','i','n','d','R','e','g','e','x','p','E','x','t','r','a','c','t'], .any, [.any (.ok .null)]⟩,
  /- function_bind.go:1093-1102 -/ ⟨['b','i','n','d','R','e','g','e','x','p','E','x','t','r','a','c','t','A','l','l'], .any, [.any (.ok .null)]⟩,
  /- function_bind.go:1104-1135 -/ ⟨['b','i','n','d','R','e','g','e','x','p','I','n','s','t','r'], .any, [.any (.ok .null)]⟩,
  /- function_bind.go:1137-1142 -/ ⟨['b','i','n','d','R','e','g','e','x','p','R','e','p','l','a','c','e'], .any, [.any (.ok .null)]⟩,
  /- function_bind.go:1144-1149 -/ ⟨['b','i','n','d','R','e','p','l','a','c','e'], .any, [.any (.ok .null)]⟩,
  /- function_bind.go:1151-1160 -/ ⟨['b','i','n','d','R','e','p','e','a','t'], .any, [.any (.ok .null)]⟩,
  /- function_bind.go:1162-1167 -/ ⟨['b','i','n','d','R','e','v','e','r','s','e'], .any, [.any (.ok .null)]⟩,
  /- function_bind.go:1169-1178 -/ ⟨['b','i','n','d','R','i','g','h','t'], .any, [.any (.ok .null)]⟩,
  /- function_bind.go:1180-1193 -/ ⟨['b','i','n','d','R','p','a','d'], .any, [.any (.ok .null)]⟩,
  /- function_bind.go:1195-1208 -/ ⟨['b','i','n','d','R','t','r','i','m'], .any, [.any (.ok .null)]⟩,
  /- function_bind.go:1210-1219 -/ ⟨['b','i','n','d','S','a','f','e','C','o','n','v','e','r','t','B','y','t','e','s','T','o','S','t','r','i','n','g'], .any, [.any (.ok .null)]⟩,
  /- function_bind.go:1221-1230 -/ ⟨['b','i','n','d','S','o','u','n','d','e','x'], .any, [.any (.ok .null)]⟩,
  /- function_bind.go:1232-1241 -/ ⟨['b','i','n','d','S','p','l','i','t'], .any, [.any (.ok (.arr []))]⟩,
  /- function_bind.go:1243-1251 -/ ⟨['b','i','n','d','S','t','a','r','t','s','W','i','t','h'], .of [2], [.any (.ok .null)]⟩,
  /- function_bind.go:1253-1261 -/ ⟨['b','i','n','d','S','t','r','p','o','s'], .of [2], [.any (.ok .null)]⟩,
  /- function_bind.go:1263-1283 -/ ⟨['b','i','n','d','S','u','b','s','t','r'], .of [2, 3], [.any (.ok .null)]⟩,
  /- function_bind.go:1285-1297 -/ ⟨['b','i','n','d','T','o','B','a','s','e','3','2'], .of [1], [.any (.ok .null)]⟩,
  /- function_bind.go:1299-1311 -/ ⟨['b','i','n','d','T','o','B','a','s','e','6','4'], .of [1], [.any (.ok .null)]⟩,
  /- function_bind.go:1313-1321 -/ ⟨['b','i','n','d','T','o','C','o','d','e','P','o','i','n','t','s'], .of [1], [.at 0 (.ok (.arr []))]⟩,
  /- function_bind.go:1323-1335 -/ ⟨['b','i','n','d','T','o','H','e','x'], .of [1], [.any (.ok .null)]⟩,
  /- function_bind.go:1337-1345 -/ ⟨['b','i','n','d','T','r','a','n','s','l','a','t','e'], .of [3], [.any (.ok .null)]⟩,
  /- function_bind.go:1347-1358 -/ ⟨['b','i','n','d','T','r','i','m'], .of [1, 2], [.any (.ok .null)]⟩,
  /- function_bind.go:1360-1372 -/ ⟨['b','i','n','d','U','n','i','c','o','d','e'], .of [1], [.at 0 (.ok .null)]⟩,
  /- function_bind.go:1374-1382 -/ ⟨['b','i','n','d','U','p','p','e','r'], .of [1], [.at 0 (.ok .null)]⟩,
  /- function_bind.go:1384-1397 -/ ⟨['b','i','n','d','J','s','o','n','E','x','t','r','a','c','t'], .any, [.any (.ok .null)]⟩,
  /- function_bind.go:1399-1412 -/ ⟨['b','i','n','d','J','s','o','n','E','x','t','r','a','c','t','S','c','a','l','a','r'], .any, [.any (.ok .null)]⟩,
  /- function_bind.go:1414-1427 -/ ⟨['b','i','n','d','J','s','o','n','E','x','t','r','a','c','t','A','r','r','a','y'], .any, [.any (.ok .null)]⟩,
  /- function_bind.go:1429-1442 -/ ⟨['b','i','n','d','J','s','o','n','E','x','t','r','a','c','t','S','t','r','i','n','g','A','r','r','a','y'], .any, [.any (.ok .null)]⟩,
  /- function_bind.go:1444-1457 -/ ⟨['b','i','n','d','J','s','o','n','Q','u','e','r','y'], .any, [.any (.ok .null)]⟩,
  /- function_bind.go:1459-1472 -/ ⟨['b','i','n','d','J','s','o','n','V','a','l','u','e'], .any, [.any (.ok .null)]⟩,
  /- function_bind.go:1474-1487 -/ ⟨['b','i','n','d','J','s','o','n','Q','u','e','r','y','A','r','r','a','y'], .any, [.any (.ok .null)]⟩,
  /- function_bind.go:1489-1502 -/ ⟨['b','i','n','d','J','s','o','n','V','a','l','u','e','A','r','r','a','y'], .any, [.any (.ok .null)]⟩,
  /- function_bind.go:1504-1517 -/ ⟨['b','i','n','d','P','a','r','s','e','J','s','o','n'], .any, [.any (.ok .null)]⟩,
  /- function_bind.go:1519-1535 -/ ⟨['b','i','n','d','T','o','J','s','o','n'], .of [1, 2], [.any (.ok .null)]⟩,
  /- function_bind.go:1537-1550 -/ ⟨['b','i','n','d','T','o','J','s','o','n','S','t','r','i','n','g'], .of [1, 2], [.at 1 .panic]⟩,
  /- function_bind.go:1552-1557 -/ ⟨['b','i','n','d','B','o','o','l'], .of [1], [.at 0 (.ok .null)]⟩,
  /- function_bind.go:1559-1564 -/ ⟨['b','i','n','d','I','n','t','6','4'], .of [1], [.at 0 (.ok .null)]⟩,
  /- function_bind.go:1566-1581 -/ ⟨['b','i','n','d','D','o','u','b','l','e'], .of [2], [.at 1 .panic, .at 0 (.ok .null)]⟩,
  /- function_bind.go:1583-1592 -/ ⟨['b','i','n','d','J','s','o','n','T','y','p','e'], .of [1], [.at 0 .err]⟩,
  /- function_bind.go:1594-1599 -/ ⟨['b','i','n','d','A','b','s'], .any, [.any (.ok .null)]⟩,
  /- function_bind.go:1601-1606 -/ ⟨['b','i','n','d','S','i','g','n'], .any, [.any (.ok .null)]⟩,
  /- function_bind.go:1608-1613 -/ ⟨['b','i','n','d','I','s','I','n','f'], .any, [.any (.ok .null)]⟩,
  /- function_bind.go:1615-1620 -/ ⟨['b','i','n','d','I','s','N','a','N'], .any, [.any (.ok .null)]⟩,
  /- function_bind.go:1622-1627 -/ ⟨['b','i','n','d','I','E','E','E','D','i','v','i','d','e'], .any, [.any (.ok .null)]⟩,
  /- function_bind.go:1629-1634 -/ ⟨['b','i','n','d','R','a','n','d'], .any, [.any (.ok .null)]⟩,
  /- function_bind.go:1636-1641 -/ ⟨['b','i','n','d','S','q','r','t'], .any, [.any (.ok .null)]⟩,
  /- function_bind.go:1643-1648 -/ ⟨['b','i','n','d','P','o','w'], .any, [.any (.ok .null)]⟩,
  /- function_bind.go:1650-1655 -/ ⟨['b','i','n','d','E','x','p'], .any, [.any (.ok .null)]⟩,
  /- function_bind.go:1657-1662 -/ ⟨['b','i','n','d','L','n'], .any, [.any (.ok .null)]⟩,
  /- function_bind.go:1664-1672 -/ ⟨['b','i','n','d','L','o','g'], .any, [.any (.ok .null)]⟩,
  /- function_bind.go:1674-1679 -/ ⟨['b','i','n','d','L','o','g','1','0'], .any, [.any (.ok .null)]⟩,
  /- function_bind.go:1681-1686 -/ ⟨['b','i','n','d','G','r','e','a','t','e','s','t'], .any, [.any (.ok .null)]⟩,
  /- function_bind.go:1688-1693 -/ ⟨['b','i','n','d','L','e','a','s','t'], .any, [.any (.ok .null)]⟩,
  /- function_bind.go:1695-1700 -/ ⟨['b','i','n','d','D','i','v'], .any, [.any (.ok .null)]⟩,
  /- function_bind.go:1702-1707 -/ ⟨['b','i','n','d','S','a','f','e','D','i','v','i','d','e'], .any, [.any (.ok .null)]⟩,
  /- function_bind.go:1709-1714 -/ ⟨['b','i','n','d','S','a','f','e','M','u','l','t','i','p','l','y'], .any, [.any (.ok .null)]⟩,
  /- function_bind.go:1716-1721 -/ ⟨['b','i','n','d','S','a','f','e','N','e','g','a','t','e'], .any, [.any (.ok .null)]⟩,
  /- function_bind.go:1723-1728 -/ ⟨['b','i','n','d','S','a','f','e','A','d','d'], .any, [.any (.ok .null)]⟩,
  /- function_bind.go:1730-1735 -/ ⟨['b','i','n','d','S','a','f','e','S','u','b','t','r','a','c','t'], .any, [.any (.ok .null)]⟩,
  /- function_bind.go:1737-1742 -/ ⟨['b','i','n','d','M','o','d'], .any, [.any (.ok .null)]⟩,
  /- function_bind.go:1744-1762 -/ ⟨['b','i','n','d','R','o','u','n','d'], .of [1, 2], [.at 1 .panic, .any (.ok .null)]⟩,
  /- function_bind.go:1764-1769 -/ ⟨['b','i','n','d','T','r','u','n','c'], .any, [.any (.ok .null)]⟩,
  /- function_bind.go:1771-1776 -/ ⟨['b','i','n','d','C','e','i','l'], .any, [.any (.ok .null)]⟩,
  /- function_bind.go:1778-1783 -/ ⟨['b','i','n','d','F','l','o','o','r'], .any, [.any (.ok .null)]⟩,
  /- function_bind.go:1785-1790 -/ ⟨['b','i','n','d','C','o','s'], .any, [.any (.ok .null)]⟩,
  /- function_bind.go:1792-1797 -/ ⟨['b','i','n','d','C','o','s','h'], .any, [.any (.ok .null)]⟩,
  /- function_bind.go:1799-1804 -/ ⟨['b','i','n','d','A','c','o','s'], .any, [.any (.ok .null)]⟩,
  /- function_bind.go:1806-1811 -/ ⟨['b','i','n','d','A','c','o','s','h'], .any, [.any (.ok .null)]⟩,
  /- function_bind.go:1813-1818 -/ ⟨['b','i','n','d','S','i','n'], .any, [.any (.ok .null)]⟩,
  /- function_bind.go:1820-1825 -/ ⟨['b','i','n','d','S','i','n','h'], .any, [.any (.ok .null)]⟩,
  /- function_bind.go:1827-1832 -/ ⟨['b','i','n','d','A','s','i','n'], .any, [.any (.ok .null)]⟩,
  /- function_bind.go:1834-1839 -/ ⟨['b','i','n','d','A','s','i','n','h'], .any, [.any (.ok .null)]⟩,
  /- function_bind.go:1841-1846 -/ ⟨['b','i','n','d','T','a','n'], .any, [.any (.ok .null)]⟩,
  /- function_bind.go:1848-1853 -/ ⟨['b','i','n','d','T','a','n','h'], .any, [.any (.ok .null)]⟩,
  /- function_bind.go:1855-1860 -/ ⟨['b','i','n','d','A','t','a','n'], .any, [.any (.ok .null)]⟩,
  /- function_bind.go:1862-1867 -/ ⟨['b','i','n','d','A','t','a','n','h'], .any, [.any (.ok .null)]⟩,
  /- function_bind.go:1869-1874 -/ ⟨['b','i','n','d','A','t','a','n','2'], .any, [.any (.ok .null)]⟩,
  /- function_bind.go:1876-1885 -/ ⟨['b','i','n','d','R','a','n','g','e','B','u','c','k','e','t'], .any, [.any (.ok .null)]⟩,
  /- function_bind.go:2730-2735 -/ ⟨['b','i','n','d','A','r','r','a','y','C','o','n','c','a','t'], .atLeast 1, [.any .panic]⟩,
  /- function_bind.go:2737-2746 -/ ⟨['b','i','n','d','A','r','r','a','y','L','e','n','g','t','h'], .of [1], [.at 0 .panic]⟩,
  /- function_bind.go:2748-2768 -/ ⟨['b','i','n','d','A','r','r','a','y','T','o','S','t','r','i','n','g'], .atLeast 2, [.at 0 .panic, .at 1 .panic, .at 2 .panic]⟩,
  /- function_bind.go:2770-2778 -/ ⟨['b','i','n','d','G','e','n','e','r','a','t','e','A','r','r','a','y'], .of [2, 3], [.any (.ok .null)]⟩,
  /- function_bind.go:2780-2788 -/ ⟨['b','i','n','d','G','e','n','e','r','a','t','e','D','a','t','e','A','r','r','a','y'], .atLeast 2, [.at 2 .panic, .at 3 .panic, .at 0 (.ok .null), .at 1 (.ok .null)]⟩,
  /- function_bind.go:2790-2803 -/ ⟨['b','i','n','d','G','e','n','e','r','a','t','e','T','i','m','e','s','t','a','m','p','A','r','r','a','y'], .of [4], [.at 2 .panic, .at 3 .panic, .at 0 (.ok .null), .at 1 (.ok .null)]⟩,
  /- function_bind.go:2805-2814 -/ ⟨['b','i','n','d','A','r','r','a','y','R','e','v','e','r','s','e'], .of [1], [.at 0 .panic]⟩,
  /- function_bind.go:2816-2818 -/ ⟨['b','i','n','d','M','a','k','e','A','r','r','a','y'], .any, []⟩,
  /- function_bind.go:2820-2825 -/ ⟨['b','i','n','d','M','a','k','e','S','t','r','u','c','t'], .even, []⟩,
  /- function_bind.go:3616-3625 -/ ⟨['b','i','n','d','H','l','l','C','o','u','n','t','E','x','t','r','a','c','t'], .any, [.at 0 (.ok .null)]⟩,
  /- function_bind.go:420-425 -/ ⟨['b','i','n','d','B','i','t','C','o','u','n','t'], .any, [.any (.ok .null)]⟩,
  /- function_bind.go:2827-2832 -/ ⟨['b','i','n','d','D','i','s','t','i','n','c','t'], .of [0], []⟩,
  /- function_bind.go:2834-2843 -/ ⟨['b','i','n','d','L','i','m','i','t'], .of [1], [.at 0 .panic]⟩,
  /- function_bind.go:2852-2861 -/ ⟨['b','i','n','d','O','r','d','e','r','B','y'], .of [2], [.at 1 .panic]⟩,
  /- function_bind.go:2845-2850 -/ ⟨['b','i','n','d','I','g','n','o','r','e','N','u','l','l','s'], .of [0], []⟩,
  /- function_bind.go:2863-2872 -/ ⟨['b','i','n','d','W','i','n','d','o','w','F','r','a','m','e','U','n','i','t'], .of [1], [.at 0 .panic]⟩,
  /- function_bind.go:2874-2879 -/ ⟨['b','i','n','d','W','i','n','d','o','w','P','a','r','t','i','t','i','o','n'], .of [1], []⟩,
  /- function_bind.go:2881-2894 -/ ⟨['b','i','n','d','W','i','n','d','o','w','B','o','u','n','d','a','r','y','S','t','a','r','t'], .of [2], [.at 0 .panic, .at 1 .panic]⟩,
  /- function_bind.go:2896-2909 -/ ⟨['b','i','n','d','W','i','n','d','o','w','B','o','u','n','d','a','r','y','E','n','d'], .of [2], [.at 0 .panic, .at 1 .panic]⟩,
  /- function_bind.go:2911-2920 -/ ⟨['b','i','n','d','W','i','n','d','o','w','R','o','w','I','D'], .of [1], [.at 0 .panic]⟩,
  /- function_bind.go:2922-2931 -/ ⟨['b','i','n','d','W','i','n','d','o','w','O','r','d','e','r','B','y'], .of [2], [.at 1 .panic]⟩,
  /- function_bind.go:2933-2962 -/ ⟨['b','i','n','d','E','v','a','l','J','a','v','a','S','c','r','i','p','t'], .any, [.at 0 .panic, .at 1 .panic, .at 2 .panic]⟩,
  /- function_bind.go:2964-2976 -/ ⟨['b','i','n','d','N','e','t','H','o','s','t'], .of [1], [.at 0 (.ok .null)]⟩,
  /- function_bind.go:2978-2990 -/ ⟨['b','i','n','d','N','e','t','I','p','F','r','o','m','S','t','r','i','n','g'], .of [1], [.at 0 (.ok .null)]⟩,
  /- function_bind.go:2992-3008 -/ ⟨['b','i','n','d','N','e','t','I','p','N','e','t','M','a','s','k'], .of [2], [.any (.ok .null)]⟩,
  /- function_bind.go:3010-3019 -/ ⟨['b','i','n','d','N','e','t','I','p','T','o','S','t','r','i','n','g'], .of [1], [.at 0 .panic]⟩,
  /- function_bind.go:3021-3034 -/ ⟨['b','i','n','d','N','e','t','I','p','T','r','u','n','c'], .of [2], [.at 0 .panic, .at 1 .panic]⟩,
  /- function_bind.go:3036-3045 -/ ⟨['b','i','n','d','N','e','t','I','p','v','4','F','r','o','m','I','n','t','6','4'], .of [1], [.at 0 .panic]⟩,
  /- function_bind.go:3047-3056 -/ ⟨['b','i','n','d','N','e','t','I','p','v','4','T','o','I','n','t','6','4'], .of [1], [.at 0 .panic]⟩,
  /- function_bind.go:3058-3067 -/ ⟨['b','i','n','d','N','e','t','P','u','b','l','i','c','S','u','f','f','i','x'], .of [1], [.at 0 .panic]⟩,
  /- function_bind.go:3069-3078 -/ ⟨['b','i','n','d','N','e','t','R','e','g','D','o','m','a','i','n'], .of [1], [.at 0 .panic]⟩,
  /- function_bind.go:3080-3092 -/ ⟨['b','i','n','d','N','e','t','S','a','f','e','I','p','F','r','o','m','S','t','r','i','n','g'], .of [1], [.at 0 (.ok .null)]⟩
]

/-- A call of a bind function; `body` is what follows the checks. -/
def call (b : Name) (body : List Val → Res Val) (args : List Val) : Res Val :=
  match binds.find? (·.name = b) with
  | some f => if f.count.ok args.length then run body args f.steps else .err
  | none => body args

/-- Whether a bind function accepts the number of arguments. -/
def accepts (b : Name) (n : Nat) : Bool :=
  match binds.find? (·.name = b) with
  | some f => f.count.ok n
  | none => true

end Verif.Nulls
