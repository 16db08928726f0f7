/-! Small tactics used by the proofs. -/

/-- Simplify a Boolean expression with decided comparisons, and nothing else. -/
macro "bdec" "[" ts:Lean.Parser.Tactic.simpLemma,* "]" loc:(Lean.Parser.Tactic.location)? : tactic =>
  `(tactic| simp only [$ts,*, decide_true, decide_false, Bool.true_and, Bool.and_true,
    Bool.false_and, Bool.and_false, Bool.not_true, Bool.not_false, Bool.false_or, Bool.or_false,
    Bool.true_or, Bool.or_true, Bool.xor_false, Bool.false_xor, if_true, if_false] $(loc)?)
