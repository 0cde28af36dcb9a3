import json,glob
M=[]
def m(i,f,o,n,e,c,all=False): M.append(dict(id=i,file='Model/'+f,old=o,new=n,edit=e,claim=c,all=all))
S='Spline.lean'; Q='KeyRateSequence.lean'
m('z01',S,"(M 1 - M 0) * (x 2 - x 1) = (M 2 - M 1) * (x 1 - x 0)","M 0 = 0","natural instead of not-a-knot end at the left","C126_cubic")
m('z02',S,"(M (n - 1) - M (n - 2)) * (x n - x (n - 1)) = (M n - M (n - 1)) * (x (n - 1) - x (n - 2))","M n = 0","natural end at the right","C126_cubic")
m('z03',S,"    6 * ((y (i + 2) - y (i + 1))","    3 * ((y (i + 2) - y (i + 1))","factor 3 in the continuity equation","C126_cubic")
m('z04',S,"(2 * M i + M (i + 1)) / 6","(M i + 2 * M (i + 1)) / 6","slope of the piece at the wrong end","C126_cubic")
m('z05',S,"M i / 2 * (t - x i) ^ 2","M i * (t - x i) ^ 2","second derivative not halved","C126_cubic")
m('z06',S,"cubicPiece x y h.choose (Nat.findGreatest (fun i => x i ≤ t) (n - 1)) t","cubicPiece x y h.choose (Nat.findGreatest (fun i => x i ≤ t) n) t","a piece after the last knot","C126_cubic")
m('z07',S,"cubicPiece x y h.choose (Nat.findGreatest (fun i => x i ≤ t) (n - 1)) t","cubicPiece x y h.choose 0 t","the first piece used everywhere","C126_cubic")
m('z08',S,"if ¬ splineGridOk 3 grid then .error .valueError","if ¬ splineGridOk 4 grid then .error .valueError","five points required","C126_builds / C126_cubic")
m('z09',S,"  | cubic => 3","  | cubic => 2","three points accepted for a cubic","C126_builds")
m('z10',S,"def splineGridOk (degree : ℕ) (grid : List (ℚ × ℚ)) : Prop :=\n  degree + 1 ≤ grid.length","def splineGridOk (degree : ℕ) (grid : List (ℚ × ℚ)) : Prop :=\n  degree ≤ grid.length","one point too few accepted","C126_builds")
m('z11',S,"u 0 = (y 1 - y 0) / (x 1 - x 0) ∧","u 0 = 0 ∧","flat first end of the quadratic spline","C126_quadratic")
m('z12',S,"    4 * ((y (j + 2) - y (j + 1))","    2 * ((y (j + 2) - y (j + 1))","factor 2 in the quadratic system","C126_quadratic")
m('z13',S,"((x (j + 2) - x (j + 1)) * u j + (x (j + 1) - x j) * u (j + 1)) / (x (j + 2) - x j)","((x (j + 1) - x j) * u j + (x (j + 2) - x (j + 1)) * u (j + 1)) / (x (j + 2) - x j)","weights of the midpoint slopes exchanged","C126_quadratic")
m('z14',S,"0 < j → (x j + x (j + 1)) / 2 ≤ t","0 < j → x j ≤ t","breakpoints of the quadratic spline at the knots","C126_quadratic")
m('z15',S,"(u (j + 1) - u j) / (x (j + 2) - x j) * (t","(u (j + 1) - u j) / (2 * (x (j + 2) - x j)) * (t","curvature halved","C126_quadratic")
m('z16',S,"  else if t < x 0 ∨ x n < t then .error .valueError\n  else if h : ∃ M,","  else if t < x 0 then .error .valueError\n  else if h : ∃ M,","extrapolation after the grid","C126_cubic")
m('z17',S,"def gridY (grid : List (ℚ × ℚ)) (i : ℕ) : ℚ := (grid.getD i (0, 0)).2","def gridY (grid : List (ℚ × ℚ)) (i : ℕ) : ℚ := (grid.getD i (0, 0)).1","ordinates replaced by abscissas","C126")
m('z18',S,"  | cubic => .spline cubicSpline","  | cubic => .spline quadraticSpline","cubic curves interpolated quadratically","C126")
m('z19',S,"if splineGridOk kind.degree c.grid then .ok c else .error .valueError","if splineGridOk kind.degree c.grid then .ok c else .ok c","no check when the curve is built","C126_builds")
m('z20',S,"∀ i, i + 1 < grid.length → gridX grid i < gridX grid (i + 1)","∀ i, i + 2 < grid.length → gridX grid i < gridX grid (i + 1)","last abscissa not checked","C126_builds")
m('z21',Q,"| (.ok _, h') => (.error .attributeError, c, h')","| (.ok c', h') => (.error .attributeError, c', h')","slice assignment returns the slice","C81_slice_assignment_raises")
m('z22',Q,"| (.ok _, h') => (.error .attributeError, c, h')","| (.ok _, _) => (.error .attributeError, c, h)","slice assignment without the side effect","C81_slice_assignment_breaks")
seen={}
for f in glob.glob('mut*.json'):
    if f=='mut13.json': continue
    for x in json.load(open(f)): seen[(x['file'],x['old'],x['new'])]=x['id']
M2=[]
for x in M:
    k=(x['file'],x['old'],x['new'])
    if k in seen: print('dup',x['id'],seen[k]); continue
    M2.append(x)
json.dump(M2,open('mut13.json','w'),indent=1,ensure_ascii=False)
for x in M2:
    s=open('/verif/lean/Verif/'+x['file']).read()
    if s.count(x['old'])!=1: print(x['id'],s.count(x['old']))
