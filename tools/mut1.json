[
 {
  "id": "s01",
  "file": "Model/Scheduler.lean",
  "old": "d.weekday != 5 && d.weekday != 6",
  "new": "d.weekday != 6",
  "edit": "Saturday counts as a business day",
  "claim": "C01: weekends are never business days",
  "all": false
 },
 {
  "id": "s02",
  "file": "Model/Scheduler.lean",
  "old": ".ok (notHoliday && isWeekday)",
  "new": ".ok isWeekday",
  "edit": "holidays dropped from is_business_day",
  "claim": "C01: holidays are never business days",
  "all": false
 },
 {
  "id": "s03",
  "file": "Model/Scheduler.lean",
  "old": "else roll cal 1 loopFuel d\n  let d2",
  "new": "else .ok d\n  let d2",
  "edit": "subtract_single_business_day no longer rolls forward first",
  "claim": "C04/C05: subtracting n business days from a non-business day starts at the next business day",
  "all": false
 },
 {
  "id": "s04",
  "file": "Model/Scheduler.lean",
  "old": "if businessDays \u2265 0 then iterSteps (addSingleBusinessDay cal) businessDays.toNat d0",
  "new": "if businessDays \u2265 0 then iterSteps (addSingleBusinessDay cal) (businessDays.toNat - 1) d0",
  "edit": "off by one in the range of the adding loop",
  "claim": "C03: add_business_days(d, n) is the n-th business day after",
  "all": false
 },
 {
  "id": "s05",
  "file": "Model/Scheduler.lean",
  "old": "if c.month = d.month then .ok c else addBusinessDays cal d (-1)",
  "new": "if c.month = d.month then .ok c else addBusinessDays cal d (-2)",
  "edit": "modified following goes back two days",
  "claim": "C06: modified following is the last business day of the month",
  "all": false
 },
 {
  "id": "s06",
  "file": "Model/Scheduler.lean",
  "old": "if d \u2264 endDate then do\n      let d' \u2190 addSingleBusinessDay cal d",
  "new": "if d < endDate then do\n      let d' \u2190 addSingleBusinessDay cal d",
  "edit": "end date excluded",
  "claim": "C07: generate_business_days includes the end date",
  "all": false
 },
 {
  "id": "s07",
  "file": "Model/Scheduler.lean",
  "old": "(maxDates + 1).toNat",
  "new": "maxDates.toNat",
  "edit": "count < max_dates instead of <=",
  "claim": "C08: up to max_dates + 1 dates",
  "all": false
 },
 {
  "id": "s08",
  "file": "Model/Scheduler.lean",
  "old": ".ok (decide (d \u2264 e))",
  "new": ".ok (decide (d < e))",
  "edit": "zero increments count as negative",
  "claim": "C08",
  "all": false
 },
 {
  "id": "s09",
  "file": "Model/Scheduler.lean",
  "old": "| .tPlusTwoBusiness => addBusinessDays cal purchase 2",
  "new": "| .tPlusTwoBusiness => addBusinessDays cal purchase 3",
  "edit": "T+2 settles at T+3",
  "claim": "C04: settlement date is n business days after",
  "all": false
 },
 {
  "id": "s10",
  "file": "Model/Scheduler.lean",
  "old": "let hols \u2190 generateAllHolidays d.year d.year cal",
  "new": "let hols \u2190 generateAllHolidays d.year (d.year + 1) cal",
  "edit": "holidays of next year also consulted",
  "claim": "C10/C12: a New Year on a Saturday is not observed on 31 December",
  "all": false
 },
 {
  "id": "h01",
  "file": "Model/Holidays.lean",
  "old": "else if d.weekday = 6 then d.addDays 1",
  "new": "else if d.weekday = 6 then d.addDays (-1)",
  "edit": "Sunday holidays observed on Saturday",
  "claim": "C09: observed on the following Monday",
  "all": false
 },
 {
  "id": "h02",
  "file": "Model/Holidays.lean",
  "old": "let daysDiff := (wd - d.weekday) % 7",
  "new": "let daysDiff := (wd - d.weekday) % 7 + 7",
  "edit": "one week too late",
  "claim": "C09: next weekday is within 6 days",
  "all": false
 },
 {
  "id": "h03",
  "file": "Model/Holidays.lean",
  "old": "\u27e89, 1, fun",
  "new": "\u27e89, 2, fun",
  "edit": "Labor day base moved to 2 September",
  "claim": "C11: Labor day is the first Monday of September",
  "all": false
 },
 {
  "id": "h04",
  "file": "Model/Holidays.lean",
  "old": "(\"Columbus\",     \u27e810, 8, fun d => getNextWeekday d 0\u27e9),\n",
  "new": "",
  "edit": "Columbus day missing",
  "claim": "C11: eleven holidays",
  "all": false
 },
 {
  "id": "h05",
  "file": "Model/Holidays.lean",
  "old": "(toYear + 1 - fromYear).toNat",
  "new": "(toYear - fromYear).toNat",
  "edit": "to_year excluded",
  "claim": "C10: years from_year..to_year inclusive",
  "all": false
 },
 {
  "id": "d01",
  "file": "Model/DayCount.lean",
  "old": "(startDay = 31 \u2228 startDay = 30) then 30",
  "new": "startDay = 31 then 30",
  "edit": "end day 31 not clipped when start day is 30",
  "claim": "C14/C15: 30/360 rule",
  "all": false
 },
 {
  "id": "d02",
  "file": "Model/DayCount.lean",
  "old": "if startLastFeb && endLastFeb then 30 else e.day",
  "new": "if endLastFeb then 30 else e.day",
  "edit": "end of February clipped regardless of start",
  "claim": "C14",
  "all": false
 },
 {
  "id": "d03",
  "file": "Model/DayCount.lean",
  "old": "((wholeYears - 1 : Int) : \u211a)",
  "new": "((wholeYears : Int) : \u211a)",
  "edit": "act/act counts one year too many",
  "claim": "C16/C17: additivity of act/act",
  "all": false
 },
 {
  "id": "d04",
  "file": "Model/DayCount.lean",
  "old": "let scaling \u2190 pyDiv (startSeconds + endSeconds) (startWidth + endWidth)",
  "new": "let scaling \u2190 pyDiv (startSeconds) (startWidth + endWidth)",
  "edit": "end-day part forgotten",
  "claim": "datetime accruals",
  "all": false
 },
 {
  "id": "d05",
  "file": "Model/DayCount.lean",
  "old": "decide (s.instant \u2264 e.instant)",
  "new": "decide (s.instant < e.instant)",
  "edit": "equal dates rejected",
  "claim": "C13: zero accrual between equal dates",
  "all": false
 },
 {
  "id": "d06",
  "file": "Model/DayCount.lean",
  "old": "| .act365 => includeDatetimes (actOver 365) s e",
  "new": "| .act365 => includeDatetimes (actOver 360) s e",
  "edit": "act/365 dispatches to act/360",
  "claim": "C13",
  "all": false
 },
 {
  "id": "c01",
  "file": "Model/Cashflow.lean",
  "old": "if curve.referenceDate \u2264 p.date then some",
  "new": "if curve.referenceDate < p.date then some",
  "edit": "payments on the reference date dropped",
  "claim": "C19",
  "all": false
 },
 {
  "id": "c02",
  "file": "Model/Cashflow.lean",
  "old": "def addPayment (schedule : List Payment) (p : Payment) : List Payment := insortRight Payment.date schedule p",
  "new": "def addPayment (schedule : List Payment) (p : Payment) : List Payment := schedule ++ [p]",
  "edit": "append instead of insort",
  "claim": "C18: schedule stays sorted",
  "all": false
 },
 {
  "id": "c03",
  "file": "Model/Cashflow.lean",
  "old": "if dates.length \u2260 amounts.length then .error .valueError\n  else .ok",
  "new": "if dates.length < amounts.length then .error .valueError\n  else .ok",
  "edit": "only one length mismatch rejected",
  "claim": "C18/C20",
  "all": false
 },
 {
  "id": "c04",
  "file": "Model/Cashflow.lean",
  "old": "keys := c.keys ++ [k], cashflows",
  "new": "keys := c.keys, cashflows",
  "edit": "new key not recorded",
  "claim": "C20/C21",
  "all": false
 },
 {
  "id": "c05",
  "file": "Model/Cashflow.lean",
  "old": ".ok (df * pa.2))",
  "new": ".ok (df + pa.2))",
  "edit": "discount factor added",
  "claim": "C19",
  "all": false
 },
 {
  "id": "p01",
  "file": "Model/PyList.lean",
  "old": "bisectLoop (fun a => !decide (kx < key a))",
  "new": "bisectLoop (fun a => decide (key a < kx))",
  "edit": "insort_left instead of insort_right",
  "claim": "C18: stable insertion",
  "all": false
 },
 {
  "id": "k01",
  "file": "Model/KeyRate.lean",
  "old": "if f \u2264 d \u2228 d \u2264 p then .ok 0",
  "new": "if f \u2264 d then .ok 0",
  "edit": "left guard dropped",
  "claim": "C22: zero outside (prior, next)",
  "all": false
 },
 {
  "id": "k02",
  "file": "Model/KeyRate.lean",
  "old": "let timeToNext \u2190 DayCount.accrual d f k.dcc\n      let totalTime",
  "new": "let timeToNext \u2190 DayCount.accrual k.keyDate d k.dcc\n      let totalTime",
  "edit": "swapped interpolation",
  "claim": "C22/C23",
  "all": false
 },
 {
  "id": "k03",
  "file": "Model/KeyRate.lean",
  "old": "if x \u2264 k.keyDate then .error .valueError",
  "new": "if x < k.keyDate then .error .valueError",
  "edit": "next date equal to key date accepted",
  "claim": "C24",
  "all": false
 },
 {
  "id": "k04",
  "file": "Model/KeyRate.lean",
  "old": "fun _ h => setNextTo h ids i (k + 1)\n  else if",
  "new": "fun _ h => setNextTo h ids i (k + 2)\n  else if",
  "edit": "first key rate wired to the second neighbour",
  "claim": "C24/C23",
  "all": false
 },
 {
  "id": "k05",
  "file": "Model/KeyRate.lean",
  "old": "{ c with iterIndex := 0 })",
  "new": "c)",
  "edit": "iterator index not reset",
  "claim": "C49: restart",
  "all": false
 },
 {
  "id": "k06",
  "file": "Model/KeyRate.lean",
  "old": "if s.any (fun j => (h j).eq (h i)) then s else s ++ [i]",
  "new": "s ++ [i]",
  "edit": "duplicates kept in the set union",
  "claim": "C25",
  "all": false
 },
 {
  "id": "k07",
  "file": "Model/KeyRate.lean",
  "old": "if p < (h new).keyDate then",
  "new": "if p \u2264 (h new).keyDate then",
  "edit": "equal to prior accepted by __setitem__",
  "claim": "C52",
  "all": false
 },
 {
  "id": "k08",
  "file": "Model/KeyRate.lean",
  "old": "let ids := c.keyRates.eraseIdx k",
  "new": "let ids := c.keyRates.eraseIdx (k + 1)",
  "edit": "deletes the wrong element",
  "claim": "C52",
  "all": false
 },
 {
  "id": "k09",
  "file": "Model/KeyRate.lean",
  "old": "  setDates (setBumpLoop h b c.keyRates) c.keyRates",
  "new": "  setDates h c.keyRates",
  "edit": "bump not set",
  "claim": "C26",
  "all": false
 }
]