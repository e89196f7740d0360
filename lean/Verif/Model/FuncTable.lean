/-!
# The table of scalar functions (internal/function_register.go:11-289)

Generated from the source: SQL name and name of the bind function, in order.
-/

namespace Verif.Registry

/-- function_register.go:11-289 `normalFuncs`. -/
def normalFuncs : List (List Char × List Char) := [
  (['a','d','d'], ['b','i','n','d','A','d','d']),
  (['s','u','b','t','r','a','c','t'], ['b','i','n','d','S','u','b']),
  (['m','u','l','t','i','p','l','y'], ['b','i','n','d','M','u','l']),
  (['d','i','v','i','d','e'], ['b','i','n','d','O','p','D','i','v']),
  (['e','q','u','a','l'], ['b','i','n','d','E','q','u','a','l']),
  (['n','o','t','_','e','q','u','a','l'], ['b','i','n','d','N','o','t','E','q','u','a','l']),
  (['g','r','e','a','t','e','r'], ['b','i','n','d','G','r','e','a','t','e','r']),
  (['g','r','e','a','t','e','r','_','o','r','_','e','q','u','a','l'], ['b','i','n','d','G','r','e','a','t','e','r','O','r','E','q','u','a','l']),
  (['l','e','s','s'], ['b','i','n','d','L','e','s','s']),
  (['l','e','s','s','_','o','r','_','e','q','u','a','l'], ['b','i','n','d','L','e','s','s','O','r','E','q','u','a','l']),
  (['b','i','t','w','i','s','e','_','n','o','t'], ['b','i','n','d','B','i','t','N','o','t']),
  (['b','i','t','w','i','s','e','_','l','e','f','t','_','s','h','i','f','t'], ['b','i','n','d','B','i','t','L','e','f','t','S','h','i','f','t']),
  (['b','i','t','w','i','s','e','_','r','i','g','h','t','_','s','h','i','f','t'], ['b','i','n','d','B','i','t','R','i','g','h','t','S','h','i','f','t']),
  (['b','i','t','w','i','s','e','_','a','n','d'], ['b','i','n','d','B','i','t','A','n','d']),
  (['b','i','t','w','i','s','e','_','o','r'], ['b','i','n','d','B','i','t','O','r']),
  (['b','i','t','w','i','s','e','_','x','o','r'], ['b','i','n','d','B','i','t','X','o','r']),
  (['i','n','_','a','r','r','a','y'], ['b','i','n','d','I','n','A','r','r','a','y']),
  (['g','e','t','_','s','t','r','u','c','t','_','f','i','e','l','d'], ['b','i','n','d','S','t','r','u','c','t','F','i','e','l','d']),
  (['g','e','t','_','j','s','o','n','_','f','i','e','l','d'], ['b','i','n','d','J','s','o','n','F','i','e','l','d']),
  (['s','u','b','s','c','r','i','p','t'], ['b','i','n','d','S','u','b','s','c','r','i','p','t']),
  (['a','r','r','a','y','_','a','t','_','o','f','f','s','e','t'], ['b','i','n','d','A','r','r','a','y','A','t','O','f','f','s','e','t']),
  (['a','r','r','a','y','_','a','t','_','o','r','d','i','n','a','l'], ['b','i','n','d','A','r','r','a','y','A','t','O','r','d','i','n','a','l']),
  (['s','a','f','e','_','a','r','r','a','y','_','a','t','_','o','f','f','s','e','t'], ['b','i','n','d','S','a','f','e','A','r','r','a','y','A','t','O','f','f','s','e','t']),
  (['s','a','f','e','_','a','r','r','a','y','_','a','t','_','o','r','d','i','n','a','l'], ['b','i','n','d','S','a','f','e','A','r','r','a','y','A','t','O','r','d','i','n','a','l']),
  (['i','s','_','d','i','s','t','i','n','c','t','_','f','r','o','m'], ['b','i','n','d','I','s','D','i','s','t','i','n','c','t','F','r','o','m']),
  (['i','s','_','n','o','t','_','d','i','s','t','i','n','c','t','_','f','r','o','m'], ['b','i','n','d','I','s','N','o','t','D','i','s','t','i','n','c','t','F','r','o','m']),
  (['s','e','s','s','i','o','n','_','u','s','e','r'], ['b','i','n','d','S','e','s','s','i','o','n','U','s','e','r']),
  (['g','e','n','e','r','a','t','e','_','u','u','i','d'], ['b','i','n','d','G','e','n','e','r','a','t','e','U','U','I','D']),
  (['e','r','r','o','r'], ['b','i','n','d','E','r','r','o','r']),
  (['c','u','r','r','e','n','t','_','d','a','t','e'], ['b','i','n','d','C','u','r','r','e','n','t','D','a','t','e']),
  (['e','x','t','r','a','c','t'], ['b','i','n','d','E','x','t','r','a','c','t']),
  (['e','x','t','r','a','c','t','_','d','a','t','e'], ['b','i','n','d','E','x','t','r','a','c','t','D','a','t','e']),
  (['d','a','t','e'], ['b','i','n','d','D','a','t','e']),
  (['d','a','t','e','_','a','d','d'], ['b','i','n','d','D','a','t','e','A','d','d']),
  (['d','a','t','e','_','s','u','b'], ['b','i','n','d','D','a','t','e','S','u','b']),
  (['d','a','t','e','_','d','i','f','f'], ['b','i','n','d','D','a','t','e','D','i','f','f']),
  (['d','a','t','e','_','t','r','u','n','c'], ['b','i','n','d','D','a','t','e','T','r','u','n','c']),
  (['d','a','t','e','_','f','r','o','m','_','u','n','i','x','_','d','a','t','e'], ['b','i','n','d','D','a','t','e','F','r','o','m','U','n','i','x','D','a','t','e']),
  (['f','o','r','m','a','t','_','d','a','t','e'], ['b','i','n','d','F','o','r','m','a','t','D','a','t','e']),
  (['l','a','s','t','_','d','a','y'], ['b','i','n','d','L','a','s','t','D','a','y']),
  (['p','a','r','s','e','_','d','a','t','e'], ['b','i','n','d','P','a','r','s','e','D','a','t','e']),
  (['u','n','i','x','_','d','a','t','e'], ['b','i','n','d','U','n','i','x','D','a','t','e']),
  (['c','u','r','r','e','n','t','_','d','a','t','e','t','i','m','e'], ['b','i','n','d','C','u','r','r','e','n','t','D','a','t','e','t','i','m','e']),
  (['d','a','t','e','t','i','m','e'], ['b','i','n','d','D','a','t','e','t','i','m','e']),
  (['d','a','t','e','t','i','m','e','_','a','d','d'], ['b','i','n','d','D','a','t','e','t','i','m','e','A','d','d']),
  (['d','a','t','e','t','i','m','e','_','s','u','b'], ['b','i','n','d','D','a','t','e','t','i','m','e','S','u','b']),
  (['d','a','t','e','t','i','m','e','_','d','i','f','f'], ['b','i','n','d','D','a','t','e','t','i','m','e','D','i','f','f']),
  (['d','a','t','e','t','i','m','e','_','t','r','u','n','c'], ['b','i','n','d','D','a','t','e','t','i','m','e','T','r','u','n','c']),
  (['f','o','r','m','a','t','_','d','a','t','e','t','i','m','e'], ['b','i','n','d','F','o','r','m','a','t','D','a','t','e','t','i','m','e']),
  (['p','a','r','s','e','_','d','a','t','e','t','i','m','e'], ['b','i','n','d','P','a','r','s','e','D','a','t','e','t','i','m','e']),
  (['c','u','r','r','e','n','t','_','t','i','m','e'], ['b','i','n','d','C','u','r','r','e','n','t','T','i','m','e']),
  (['t','i','m','e'], ['b','i','n','d','T','i','m','e']),
  (['t','i','m','e','_','a','d','d'], ['b','i','n','d','T','i','m','e','A','d','d']),
  (['t','i','m','e','_','s','u','b'], ['b','i','n','d','T','i','m','e','S','u','b']),
  (['t','i','m','e','_','d','i','f','f'], ['b','i','n','d','T','i','m','e','D','i','f','f']),
  (['t','i','m','e','_','t','r','u','n','c'], ['b','i','n','d','T','i','m','e','T','r','u','n','c']),
  (['f','o','r','m','a','t','_','t','i','m','e'], ['b','i','n','d','F','o','r','m','a','t','T','i','m','e']),
  (['p','a','r','s','e','_','t','i','m','e'], ['b','i','n','d','P','a','r','s','e','T','i','m','e']),
  (['c','u','r','r','e','n','t','_','t','i','m','e','s','t','a','m','p'], ['b','i','n','d','C','u','r','r','e','n','t','T','i','m','e','s','t','a','m','p']),
  (['s','t','r','i','n','g'], ['b','i','n','d','S','t','r','i','n','g']),
  (['t','i','m','e','s','t','a','m','p'], ['b','i','n','d','T','i','m','e','s','t','a','m','p']),
  (['t','i','m','e','s','t','a','m','p','_','a','d','d'], ['b','i','n','d','T','i','m','e','s','t','a','m','p','A','d','d']),
  (['t','i','m','e','s','t','a','m','p','_','s','u','b'], ['b','i','n','d','T','i','m','e','s','t','a','m','p','S','u','b']),
  (['t','i','m','e','s','t','a','m','p','_','d','i','f','f'], ['b','i','n','d','T','i','m','e','s','t','a','m','p','D','i','f','f']),
  (['t','i','m','e','s','t','a','m','p','_','t','r','u','n','c'], ['b','i','n','d','T','i','m','e','s','t','a','m','p','T','r','u','n','c']),
  (['f','o','r','m','a','t','_','t','i','m','e','s','t','a','m','p'], ['b','i','n','d','F','o','r','m','a','t','T','i','m','e','s','t','a','m','p']),
  (['p','a','r','s','e','_','t','i','m','e','s','t','a','m','p'], ['b','i','n','d','P','a','r','s','e','T','i','m','e','s','t','a','m','p']),
  (['t','i','m','e','s','t','a','m','p','_','s','e','c','o','n','d','s'], ['b','i','n','d','T','i','m','e','s','t','a','m','p','S','e','c','o','n','d','s']),
  (['t','i','m','e','s','t','a','m','p','_','m','i','l','l','i','s'], ['b','i','n','d','T','i','m','e','s','t','a','m','p','M','i','l','l','i','s']),
  (['t','i','m','e','s','t','a','m','p','_','m','i','c','r','o','s'], ['b','i','n','d','T','i','m','e','s','t','a','m','p','M','i','c','r','o','s']),
  (['u','n','i','x','_','s','e','c','o','n','d','s'], ['b','i','n','d','U','n','i','x','S','e','c','o','n','d','s']),
  (['u','n','i','x','_','m','i','l','l','i','s'], ['b','i','n','d','U','n','i','x','M','i','l','l','i','s']),
  (['u','n','i','x','_','m','i','c','r','o','s'], ['b','i','n','d','U','n','i','x','M','i','c','r','o','s']),
  (['l','i','k','e'], ['b','i','n','d','L','i','k','e']),
  (['b','e','t','w','e','e','n'], ['b','i','n','d','B','e','t','w','e','e','n']),
  (['i','n'], ['b','i','n','d','I','n']),
  (['i','s','_','n','u','l','l'], ['b','i','n','d','I','s','N','u','l','l']),
  (['i','s','_','t','r','u','e'], ['b','i','n','d','I','s','T','r','u','e']),
  (['i','s','_','f','a','l','s','e'], ['b','i','n','d','I','s','F','a','l','s','e']),
  (['n','o','t'], ['b','i','n','d','N','o','t']),
  (['a','n','d'], ['b','i','n','d','A','n','d']),
  (['o','r'], ['b','i','n','d','O','r']),
  (['c','o','a','l','e','s','c','e'], ['b','i','n','d','C','o','a','l','e','s','c','e']),
  (['i','f'], ['b','i','n','d','I','f']),
  (['i','f','n','u','l','l'], ['b','i','n','d','I','f','N','u','l','l']),
  (['n','u','l','l','i','f'], ['b','i','n','d','N','u','l','l','I','f']),
  (['l','e','n','g','t','h'], ['b','i','n','d','L','e','n','g','t','h']),
  (['c','a','s','t'], ['b','i','n','d','C','a','s','t']),
  (['i','n','t','e','r','v','a','l'], ['b','i','n','d','I','n','t','e','r','v','a','l']),
  (['m','a','k','e','_','i','n','t','e','r','v','a','l'], ['b','i','n','d','M','a','k','e','I','n','t','e','r','v','a','l']),
  (['j','u','s','t','i','f','y','_','d','a','y','s'], ['b','i','n','d','J','u','s','t','i','f','y','D','a','y','s']),
  (['j','u','s','t','i','f','y','_','h','o','u','r','s'], ['b','i','n','d','J','u','s','t','i','f','y','H','o','u','r','s']),
  (['j','u','s','t','i','f','y','_','i','n','t','e','r','v','a','l'], ['b','i','n','d','J','u','s','t','i','f','y','I','n','t','e','r','v','a','l']),
  (['p','a','r','s','e','_','n','u','m','e','r','i','c'], ['b','i','n','d','P','a','r','s','e','N','u','m','e','r','i','c']),
  (['p','a','r','s','e','_','b','i','g','n','u','m','e','r','i','c'], ['b','i','n','d','P','a','r','s','e','B','i','g','N','u','m','e','r','i','c']),
  (['f','a','r','m','_','f','i','n','g','e','r','p','r','i','n','t'], ['b','i','n','d','F','a','r','m','F','i','n','g','e','r','p','r','i','n','t']),
  (['m','d','5'], ['b','i','n','d','M','D','5']),
  (['s','h','a','1'], ['b','i','n','d','S','h','a','1']),
  (['s','h','a','2','5','6'], ['b','i','n','d','S','h','a','2','5','6']),
  (['s','h','a','5','1','2'], ['b','i','n','d','S','h','a','5','1','2']),
  (['a','s','c','i','i'], ['b','i','n','d','A','s','c','i','i']),
  (['b','y','t','e','_','l','e','n','g','t','h'], ['b','i','n','d','B','y','t','e','L','e','n','g','t','h']),
  (['c','h','a','r','_','l','e','n','g','t','h'], ['b','i','n','d','C','h','a','r','L','e','n','g','t','h']),
  (['c','h','r'], ['b','i','n','d','C','h','r']),
  (['c','o','d','e','_','p','o','i','n','t','s','_','t','o','_','b','y','t','e','s'], ['b','i','n','d','C','o','d','e','P','o','i','n','t','s','T','o','B','y','t','e','s']),
  (['c','o','d','e','_','p','o','i','n','t','s','_','t','o','_','s','t','r','i','n','g'], ['b','i','n','d','C','o','d','e','P','o','i','n','t','s','T','o','S','t','r','i','n','g']),
  (['c','o','l','l','a','t','e'], ['b','i','n','d','C','o','l','l','a','t','e']),
  (['c','o','n','c','a','t'], ['b','i','n','d','C','o','n','c','a','t']),
  (['c','o','n','t','a','i','n','s','_','s','u','b','s','t','r'], ['b','i','n','d','C','o','n','t','a','i','n','s','S','u','b','s','t','r']),
  (['e','n','d','s','_','w','i','t','h'], ['b','i','n','d','E','n','d','s','W','i','t','h']),
  (['f','o','r','m','a','t'], ['b','i','n','d','F','o','r','m','a','t']),
  (['f','r','o','m','_','b','a','s','e','3','2'], ['b','i','n','d','F','r','o','m','B','a','s','e','3','2']),
  (['f','r','o','m','_','b','a','s','e','6','4'], ['b','i','n','d','F','r','o','m','B','a','s','e','6','4']),
  (['f','r','o','m','_','h','e','x'], ['b','i','n','d','F','r','o','m','H','e','x']),
  (['i','n','i','t','c','a','p'], ['b','i','n','d','I','n','i','t','c','a','p']),
  (['i','n','s','t','r'], ['b','i','n','d','I','n','s','t','r']),
  (['l','e','f','t'], ['b','i','n','d','L','e','f','t']),
  (['l','e','n','g','t','h'], ['b','i','n','d','L','e','n','g','t','h']),
  (['l','p','a','d'], ['b','i','n','d','L','p','a','d']),
  (['l','o','w','e','r'], ['b','i','n','d','L','o','w','e','r']),
  (['l','t','r','i','m'], ['b','i','n','d','L','t','r','i','m']),
  (['n','o','r','m','a','l','i','z','e'], ['b','i','n','d','N','o','r','m','a','l','i','z','e']),
  (['n','o','r','m','a','l','i','z','e','_','a','n','d','_','c','a','s','e','f','o','l','d'], ['b','i','n','d','N','o','r','m','a','l','i','z','e','A','n','d','C','a','s','e','f','o','l','d']),
  (['r','e','g','e','x','p','_','c','o','n','t','a','i','n','s'], ['b','i','n','d','R','e','g','e','x','p','C','o','n','t','a','i','n','s']),
  (['r','e','g','e','x','p','_','e','x','t','r','a','c','t'], ['b','i','n','d','R','e','g','e','x','p','E','x','t','r','a','c','t']),
  (['r','e','g','e','x','p','_','e','x','t','r','a','c','t','_','a','l','l'], ['b','i','n','d','R','e','g','e','x','p','E','x','t','r','a','c','t','A','l','l']),
  (['r','e','g','e','x','p','_','i','n','s','t','r'], ['b','i','n','d','R','e','g','e','x','p','I','n','s','t','r']),
  (['r','e','g','e','x','p','_','r','e','p','l','a','c','e'], ['b','i','n','d','R','e','g','e','x','p','R','e','p','l','a','c','e']),
  (['r','e','p','l','a','c','e'], ['b','i','n','d','R','e','p','l','a','c','e']),
  (['r','e','p','e','a','t'], ['b','i','n','d','R','e','p','e','a','t']),
  (['r','e','v','e','r','s','e'], ['b','i','n','d','R','e','v','e','r','s','e']),
  (['r','i','g','h','t'], ['b','i','n','d','R','i','g','h','t']),
  (['r','p','a','d'], ['b','i','n','d','R','p','a','d']),
  (['r','t','r','i','m'], ['b','i','n','d','R','t','r','i','m']),
  (['s','a','f','e','_','c','o','n','v','e','r','t','_','b','y','t','e','s','_','t','o','_','s','t','r','i','n','g'], ['b','i','n','d','S','a','f','e','C','o','n','v','e','r','t','B','y','t','e','s','T','o','S','t','r','i','n','g']),
  (['s','o','u','n','d','e','x'], ['b','i','n','d','S','o','u','n','d','e','x']),
  (['s','p','l','i','t'], ['b','i','n','d','S','p','l','i','t']),
  (['s','t','a','r','t','s','_','w','i','t','h'], ['b','i','n','d','S','t','a','r','t','s','W','i','t','h']),
  (['s','t','r','p','o','s'], ['b','i','n','d','S','t','r','p','o','s']),
  (['s','u','b','s','t','r'], ['b','i','n','d','S','u','b','s','t','r']),
  (['t','o','_','b','a','s','e','3','2'], ['b','i','n','d','T','o','B','a','s','e','3','2']),
  (['t','o','_','b','a','s','e','6','4'], ['b','i','n','d','T','o','B','a','s','e','6','4']),
  (['t','o','_','c','o','d','e','_','p','o','i','n','t','s'], ['b','i','n','d','T','o','C','o','d','e','P','o','i','n','t','s']),
  (['t','o','_','h','e','x'], ['b','i','n','d','T','o','H','e','x']),
  (['t','r','a','n','s','l','a','t','e'], ['b','i','n','d','T','r','a','n','s','l','a','t','e']),
  (['t','r','i','m'], ['b','i','n','d','T','r','i','m']),
  (['u','n','i','c','o','d','e'], ['b','i','n','d','U','n','i','c','o','d','e']),
  (['u','p','p','e','r'], ['b','i','n','d','U','p','p','e','r']),
  (['j','s','o','n','_','e','x','t','r','a','c','t'], ['b','i','n','d','J','s','o','n','E','x','t','r','a','c','t']),
  (['j','s','o','n','_','e','x','t','r','a','c','t','_','s','c','a','l','a','r'], ['b','i','n','d','J','s','o','n','E','x','t','r','a','c','t','S','c','a','l','a','r']),
  (['j','s','o','n','_','e','x','t','r','a','c','t','_','a','r','r','a','y'], ['b','i','n','d','J','s','o','n','E','x','t','r','a','c','t','A','r','r','a','y']),
  (['j','s','o','n','_','e','x','t','r','a','c','t','_','s','t','r','i','n','g','_','a','r','r','a','y'], ['b','i','n','d','J','s','o','n','E','x','t','r','a','c','t','S','t','r','i','n','g','A','r','r','a','y']),
  (['j','s','o','n','_','q','u','e','r','y'], ['b','i','n','d','J','s','o','n','Q','u','e','r','y']),
  (['j','s','o','n','_','v','a','l','u','e'], ['b','i','n','d','J','s','o','n','V','a','l','u','e']),
  (['j','s','o','n','_','q','u','e','r','y','_','a','r','r','a','y'], ['b','i','n','d','J','s','o','n','Q','u','e','r','y','A','r','r','a','y']),
  (['j','s','o','n','_','v','a','l','u','e','_','a','r','r','a','y'], ['b','i','n','d','J','s','o','n','V','a','l','u','e','A','r','r','a','y']),
  (['p','a','r','s','e','_','j','s','o','n'], ['b','i','n','d','P','a','r','s','e','J','s','o','n']),
  (['t','o','_','j','s','o','n'], ['b','i','n','d','T','o','J','s','o','n']),
  (['t','o','_','j','s','o','n','_','s','t','r','i','n','g'], ['b','i','n','d','T','o','J','s','o','n','S','t','r','i','n','g']),
  (['b','o','o','l'], ['b','i','n','d','B','o','o','l']),
  (['i','n','t','6','4'], ['b','i','n','d','I','n','t','6','4']),
  (['d','o','u','b','l','e'], ['b','i','n','d','D','o','u','b','l','e']),
  (['j','s','o','n','_','t','y','p','e'], ['b','i','n','d','J','s','o','n','T','y','p','e']),
  (['a','b','s'], ['b','i','n','d','A','b','s']),
  (['s','i','g','n'], ['b','i','n','d','S','i','g','n']),
  (['i','s','_','i','n','f'], ['b','i','n','d','I','s','I','n','f']),
  (['i','s','_','n','a','n'], ['b','i','n','d','I','s','N','a','N']),
  (['i','e','e','e','_','d','i','v','i','d','e'], ['b','i','n','d','I','E','E','E','D','i','v','i','d','e']),
  (['r','a','n','d'], ['b','i','n','d','R','a','n','d']),
  (['s','q','r','t'], ['b','i','n','d','S','q','r','t']),
  (['p','o','w'], ['b','i','n','d','P','o','w']),
  (['p','o','w','e','r'], ['b','i','n','d','P','o','w']),
  (['e','x','p'], ['b','i','n','d','E','x','p']),
  (['l','n'], ['b','i','n','d','L','n']),
  (['l','o','g'], ['b','i','n','d','L','o','g']),
  (['l','o','g','1','0'], ['b','i','n','d','L','o','g','1','0']),
  (['g','r','e','a','t','e','s','t'], ['b','i','n','d','G','r','e','a','t','e','s','t']),
  (['l','e','a','s','t'], ['b','i','n','d','L','e','a','s','t']),
  (['d','i','v'], ['b','i','n','d','D','i','v']),
  (['s','a','f','e','_','d','i','v','i','d','e'], ['b','i','n','d','S','a','f','e','D','i','v','i','d','e']),
  (['s','a','f','e','_','m','u','l','t','i','p','l','y'], ['b','i','n','d','S','a','f','e','M','u','l','t','i','p','l','y']),
  (['s','a','f','e','_','n','e','g','a','t','e'], ['b','i','n','d','S','a','f','e','N','e','g','a','t','e']),
  (['s','a','f','e','_','a','d','d'], ['b','i','n','d','S','a','f','e','A','d','d']),
  (['s','a','f','e','_','s','u','b','t','r','a','c','t'], ['b','i','n','d','S','a','f','e','S','u','b','t','r','a','c','t']),
  (['m','o','d'], ['b','i','n','d','M','o','d']),
  (['r','o','u','n','d'], ['b','i','n','d','R','o','u','n','d']),
  (['t','r','u','n','c'], ['b','i','n','d','T','r','u','n','c']),
  (['c','e','i','l'], ['b','i','n','d','C','e','i','l']),
  (['c','e','i','l','i','n','g'], ['b','i','n','d','C','e','i','l']),
  (['f','l','o','o','r'], ['b','i','n','d','F','l','o','o','r']),
  (['c','o','s'], ['b','i','n','d','C','o','s']),
  (['c','o','s','h'], ['b','i','n','d','C','o','s','h']),
  (['a','c','o','s'], ['b','i','n','d','A','c','o','s']),
  (['a','c','o','s','h'], ['b','i','n','d','A','c','o','s','h']),
  (['s','i','n'], ['b','i','n','d','S','i','n']),
  (['s','i','n','h'], ['b','i','n','d','S','i','n','h']),
  (['a','s','i','n'], ['b','i','n','d','A','s','i','n']),
  (['a','s','i','n','h'], ['b','i','n','d','A','s','i','n','h']),
  (['t','a','n'], ['b','i','n','d','T','a','n']),
  (['t','a','n','h'], ['b','i','n','d','T','a','n','h']),
  (['a','t','a','n'], ['b','i','n','d','A','t','a','n']),
  (['a','t','a','n','h'], ['b','i','n','d','A','t','a','n','h']),
  (['a','t','a','n','2'], ['b','i','n','d','A','t','a','n','2']),
  (['r','a','n','g','e','_','b','u','c','k','e','t'], ['b','i','n','d','R','a','n','g','e','B','u','c','k','e','t']),
  (['a','r','r','a','y','_','c','o','n','c','a','t'], ['b','i','n','d','A','r','r','a','y','C','o','n','c','a','t']),
  (['a','r','r','a','y','_','l','e','n','g','t','h'], ['b','i','n','d','A','r','r','a','y','L','e','n','g','t','h']),
  (['a','r','r','a','y','_','t','o','_','s','t','r','i','n','g'], ['b','i','n','d','A','r','r','a','y','T','o','S','t','r','i','n','g']),
  (['g','e','n','e','r','a','t','e','_','a','r','r','a','y'], ['b','i','n','d','G','e','n','e','r','a','t','e','A','r','r','a','y']),
  (['g','e','n','e','r','a','t','e','_','d','a','t','e','_','a','r','r','a','y'], ['b','i','n','d','G','e','n','e','r','a','t','e','D','a','t','e','A','r','r','a','y']),
  (['g','e','n','e','r','a','t','e','_','t','i','m','e','s','t','a','m','p','_','a','r','r','a','y'], ['b','i','n','d','G','e','n','e','r','a','t','e','T','i','m','e','s','t','a','m','p','A','r','r','a','y']),
  (['a','r','r','a','y','_','r','e','v','e','r','s','e'], ['b','i','n','d','A','r','r','a','y','R','e','v','e','r','s','e']),
  (['m','a','k','e','_','a','r','r','a','y'], ['b','i','n','d','M','a','k','e','A','r','r','a','y']),
  (['m','a','k','e','_','s','t','r','u','c','t'], ['b','i','n','d','M','a','k','e','S','t','r','u','c','t']),
  (['h','l','l','_','c','o','u','n','t','_','e','x','t','r','a','c','t'], ['b','i','n','d','H','l','l','C','o','u','n','t','E','x','t','r','a','c','t']),
  (['b','i','t','_','c','o','u','n','t'], ['b','i','n','d','B','i','t','C','o','u','n','t']),
  (['d','i','s','t','i','n','c','t'], ['b','i','n','d','D','i','s','t','i','n','c','t']),
  (['l','i','m','i','t'], ['b','i','n','d','L','i','m','i','t']),
  (['o','r','d','e','r','_','b','y'], ['b','i','n','d','O','r','d','e','r','B','y']),
  (['i','g','n','o','r','e','_','n','u','l','l','s'], ['b','i','n','d','I','g','n','o','r','e','N','u','l','l','s']),
  (['w','i','n','d','o','w','_','f','r','a','m','e','_','u','n','i','t'], ['b','i','n','d','W','i','n','d','o','w','F','r','a','m','e','U','n','i','t']),
  (['w','i','n','d','o','w','_','p','a','r','t','i','t','i','o','n'], ['b','i','n','d','W','i','n','d','o','w','P','a','r','t','i','t','i','o','n']),
  (['w','i','n','d','o','w','_','b','o','u','n','d','a','r','y','_','s','t','a','r','t'], ['b','i','n','d','W','i','n','d','o','w','B','o','u','n','d','a','r','y','S','t','a','r','t']),
  (['w','i','n','d','o','w','_','b','o','u','n','d','a','r','y','_','e','n','d'], ['b','i','n','d','W','i','n','d','o','w','B','o','u','n','d','a','r','y','E','n','d']),
  (['w','i','n','d','o','w','_','r','o','w','i','d'], ['b','i','n','d','W','i','n','d','o','w','R','o','w','I','D']),
  (['w','i','n','d','o','w','_','o','r','d','e','r','_','b','y'], ['b','i','n','d','W','i','n','d','o','w','O','r','d','e','r','B','y']),
  (['e','v','a','l','_','j','a','v','a','s','c','r','i','p','t'], ['b','i','n','d','E','v','a','l','J','a','v','a','S','c','r','i','p','t']),
  (['n','e','t','_','h','o','s','t'], ['b','i','n','d','N','e','t','H','o','s','t']),
  (['n','e','t','_','i','p','_','f','r','o','m','_','s','t','r','i','n','g'], ['b','i','n','d','N','e','t','I','p','F','r','o','m','S','t','r','i','n','g']),
  (['n','e','t','_','i','p','_','n','e','t','_','m','a','s','k'], ['b','i','n','d','N','e','t','I','p','N','e','t','M','a','s','k']),
  (['n','e','t','_','i','p','_','t','o','_','s','t','r','i','n','g'], ['b','i','n','d','N','e','t','I','p','T','o','S','t','r','i','n','g']),
  (['n','e','t','_','i','p','_','t','r','u','n','c'], ['b','i','n','d','N','e','t','I','p','T','r','u','n','c']),
  (['n','e','t','_','i','p','v','4','_','f','r','o','m','_','i','n','t','6','4'], ['b','i','n','d','N','e','t','I','p','v','4','F','r','o','m','I','n','t','6','4']),
  (['n','e','t','_','i','p','v','4','_','t','o','_','i','n','t','6','4'], ['b','i','n','d','N','e','t','I','p','v','4','T','o','I','n','t','6','4']),
  (['n','e','t','_','p','u','b','l','i','c','_','s','u','f','f','i','x'], ['b','i','n','d','N','e','t','P','u','b','l','i','c','S','u','f','f','i','x']),
  (['n','e','t','_','r','e','g','_','d','o','m','a','i','n'], ['b','i','n','d','N','e','t','R','e','g','D','o','m','a','i','n']),
  (['n','e','t','_','s','a','f','e','_','i','p','_','f','r','o','m','_','s','t','r','i','n','g'], ['b','i','n','d','N','e','t','S','a','f','e','I','p','F','r','o','m','S','t','r','i','n','g'])]

end Verif.Registry
