import add
add.prop('''p("A bootstrapped curve reprices its instruments",
  "The curve returned by bootstrap_yield_curve values every instrument used at its quoted price, up to what the root search left: later searches do not disturb earlier instruments and later pricing does not change it. (Holds with the error last seen by each search, for instruments in increasing order of their knot dates; in another order the searches move the wrong knots, and the solver's result is never written back, so that the last evaluated point counts.)",
  "every list of instruments depending on discount factors up to their knot dates, and every sequence of points the root searches evaluate","All instruments and all behaviours of the solver.",YC+":YieldCurveFactory.bootstrap_yield_curve")
p("The curve constructed by a simultaneous root search",
  "construct_yield_curve returns a curve which values every asset like a new curve holding the solver's solution at the instruments' knot dates, in whatever order the instruments come and whatever was evaluated before; if the solver saw zero errors at the solution, every instrument is repriced exactly.",
  "every list of instruments, points evaluated and solution","All instruments and all behaviours of the solver.",YC+":YieldCurveFactory.construct_yield_curve")
p("The curve constructed from yields to maturity",
  "construct_curve_from_yield_to_maturities returns a curve taking at each instrument's maturity the instrument's yield to maturity. (False: it takes the quoted price there; and no asset can be valued on it.)",
  "every list of instruments and asset","All instruments.",YC+":YieldCurveFactory.construct_curve_from_yield_to_maturities")''')
add.note('C73','partial','C73_reprices_partial: exact error of every instrument on the final curve, for instruments in increasing knot order; C73_fixed: bonds and zero-coupon payments qualify; C73_builds: the bootstrap succeeds. False otherwise: C73_unsorted_false (the function searched is constant), C73_curve (the curve holds the last evaluated points, at the i-th earliest knot for the i-th instrument; the solver result is not used).')
add.note('C74','proved','For every order of instruments, evaluated points and solution.')
add.note('C75','partial','The curve interpolates the knot values (C75_knots_partial); false as stated: for bonds these are prices (C75_prices_false), and present values are a TypeError (C75_present_value_raises).')
