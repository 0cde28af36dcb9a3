p='Verif/Props/PathResponse.lean';s=open(p).read()
s=s.replace("zip r.2) 0 y0, _, ?_, ?_⟩","zip r.2) 0 y0,\n      if set' then { d with path := some (Diffusion.euler d.coords ((BrownianMotion.increments b.chol z' 0 r.2).zip r.2) 0 y0) } else d,\n      ?_, ?_⟩")
open(p,'w').write(s)
