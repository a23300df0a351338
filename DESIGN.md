# Formal model of mlange-42/bbn: design

`properties.jsonl` lists the claims, in terms of the API. This file says, per claim, what is modelled and how it is proved,
and states the trusted base. `MANIFEST.json` maps each claim to the exact theorem names. `seeded/LOG.jsonl` records the wrong
programs the theorems were tested against.

## 1. Approach

* Lean 4 + Mathlib. All sources are in `lean/Verif/`:
  * `Model/*`  - the Go code, function by function, each definition with the file and lines it models;
  * `Spec/*`   - small specifications that do not mention the model's helpers;
  * `Lemmas/*` - auxiliary lemmas;
  * `Props/*`  - the property theorems (`Cnn_...`), each with a concrete case that meets its hypotheses.
  * `Tests/*`  - not proofs: the model run on the inputs of the repository's own unit tests (`*_test.go`), compared at build time
    with the values those tests expect. Nothing depends on them; they guard against misreading the code.
* **Panics and errors** are explicit: a function that can panic or return an error is modelled in `Except Fault`, with
  `Fault.panic` and `Fault.error` kept apart. Slice accesses, integer division, nil dereferences and nil slices are modelled
  where the code reaches them.
* **Numbers.** Model definitions only ask for the operations (`Zero One Add Mul Div ...`), with no laws. Theorems that need no
  laws (indexing, Restrict, Rearrange, Get/Set, logic tables, files, events) hold for any number type, so also for IEEE floats.
  Theorems about sums and products ask for a commutative semiring, those with division and order for a linearly ordered field
  ("exact arithmetic"; every finite float64 is a rational). Two further layers leave exact arithmetic:
  * `Spec/ExtNum` (NaN and infinities): results on a field carry over to the extended numbers along an embedding
    (`Lemmas/Transfer`, `Lemmas/TransferNet`), used for impossible evidence (C32) and for NaN cells in the app;
  * `Spec/Rounding` (any arithmetic with relative error at most `u`, as float64 has without overflow and denormals): C93 bounds
    the error of every query answer, C114 that of every expected utility, and C115 what a solved policy can lose, for the same
    model code, run on such numbers. `RangedRounding` adds the limits of the exponent (C121).
* **Map iteration.** Go's random map order is modelled by a schedule: for each iteration, an arbitrary reordering that may depend
  on the time and on the keys, but not on the numbers stored under them. All theorems quantify over all schedules.
* **Loops** are recursion/folds that thread the same state the Go loop threads (the odometer `increment`, the output data, the
  counter of factor IDs).
* **Mutable state** (factor counter, eliminated flags, `ve.factors`, network policies, shared logic operators, trainer counters,
  the whole state of the app, the files it writes) is threaded explicitly; "all histories" claims are inductions over lists of
  operations or events.
* **Refuted claims.** Where the code does not have the property a user relies on, the claim stays as it is in
  `properties.jsonl`, a `_refuted` theorem gives a concrete reachable counterexample in the model, and a `_partial` theorem proves
  what does hold. The claim is `partial` in the manifest.

## 2. Specifications

The meaning of a network is defined in `Spec/Network.lean` without reference to the solver: a *world* picks one outcome for each
variable, the weight of a world is the product of the row-normalised table entries (and of the policies in use), and the posterior
of an outcome is the sum of the weights of the agreeing worlds, divided by the sum over all worlds that agree with the evidence.
Utilities, policies and optimality are defined on the same worlds (`Spec/NetPolicy`, `Spec/NetOptimal`). For the solver package
`ve`, the specification is the sum over assignments of the product of the tables (`Spec/SumOver`, `Spec/Value`, `Spec/Solve`,
`Spec/Decide`). Validity of a network (`Net.Valid`) is what `New` checks plus table lengths and row sums; C35 relates the two.
Logic operators are specified by Boolean formulas on the parents' truth values (`Spec/Logic`), training by relative frequencies of
the samples (`Spec/Training`, `Spec/TrainCsv`), pictures by what is at each cell (`Spec/Box`, `Spec/Canvas`, `Spec/Arrow`), texts by
the decimal number they stand for (`Spec/Text`).

## 3. Per property: what is modelled and how it is proved

Status is that of `MANIFEST.json`. `partial` means: the claim as users expect it is false for this code, and a
`_refuted` theorem and a `_partial` theorem say why and what does hold, or a part is not proved (see the note in the manifest).

| id | claim | status | modelled | proof |
|---|---|---|---|---|
| C01 | Index and Outcomes are inverse bijections | proved | `flatIndex`, `outcomesOf` over lists of variables | induction on the variable list; div/mod |
| C02 | Data is laid out in row-major order, the last variable fastest | proved | `increment` | induction on variables: incrementing the digits of k gives the digits of k+1 |
| C03 | Set and Get address single cells | proved | `Factor.get`, `Factor.set` on tuples of integers | injectivity from C01 |
| C04 | IndexWithNoData reports missing data exactly | proved | `indexWithNoData` | induction |
| C05 | Row of a ve.Factor is the slice of the last variable | proved | `rowIndex`, `row` | flat index of `t ++ [c]` = row start + c |
| C06 | Product is the pointwise product | proved | `product` (union of scopes by struct equality, position maps, odometer loop) | loop = map over digits; value lemma through assignments by variable ID |
| C07 | Product does not depend on argument order or grouping | proved | same | corollary of C06 with commutativity |
| C08 | Sum is the pointwise sum | proved | `sum` | as C06 |
| C09 | SumOut marginalises one variable | proved | `sumOut` (read-modify-write loop) | loop invariant: cell = sum of the matching entries seen so far |
| C10 | The order of summing out does not matter | proved | same | from C09; finite sums commute |
| C11 | Restrict fixes one variable | proved | `restrict` | loop invariant on written cells |
| C12 | Restrict commutes with the other operations | proved | same | from C06, C09, C11 |
| C13 | Rearrange only reorders | proved | `rearrange` (both branches) | from the loop lemma; no laws on numbers |
| C14 | Marginal sums out everything else | proved | `marginal` | as C09, and equality with iterated `sumOut` |
| C15 | Normalize rescales to total one | proved | `normalize` | field arithmetic |
| C16 | NormalizeFor makes a conditional distribution | proved | `normalizeFor` | group lemma on the rearranged data |
| C17 | Invert and NormalizeUtility divide pointwise | proved | `invert`, `normalizeUtility` | from C06 |
| C18 | Policy picks exactly the best outcomes | proved | `policy` with the running-maximum loop | invariant: list of indices = all positions of the maximum so far |
| C19 | Factor IDs are unique per Variables instance | proved | state machine of factor-creating calls | induction over histories |
| C20 | Operations reject malformed calls with a panic and nothing else | proved | explicit panics | case analysis; absence of panics from the total-correctness lemmas |
| C21 | AddVariable rejects a reused ID | partial | `addVariable` with the `ids` map | refuted: `ids` is never filled; partial: distinct IDs work |
| C22 | Get rejects out-of-range outcomes | partial | integer-indexed `get` | refuted by an aliasing tuple; partial: wrong arity and flat overflow do panic |
| C23 | VE.SolveQuery computes the exact joint marginal | proved | `VE.solve` with arbitrary iteration schedules | invariant: product of the remaining factors, summed over the eliminated variables, is unchanged |
| C24 | Answers do not depend on Go map iteration order | proved | same | the degree list is permutation invariant and sorted by distinct keys; values from C23/C25 |
| C25 | VE.SolveUtility computes the exact expected weighted utility | proved | `sumUtilities` | product with the summed factor; elimination invariant |
| C26 | VE.SolveUtility for one utility variable uses only that one | proved | `removeUtilities` | filter lemma |
| C27 | Total utility is the weighted sum of the single utilities | proved | both | linearity of the sum |
| C28 | Decisions are ordered topologically | proved | `sortTopological` with explicit recursion (fuel = number of decisions) | DFS invariant; uniqueness of the order for connected decisions |
| C29 | A solved policy is a best response at every information state | proved | `solvePolicies` | C18 and the invariant of C23 |
| C30 | For a single decision no other policy has higher expected utility | proved | same | exchange argument with non-negative cofactors |
| C31 | Network.SolveQuery returns the exact posterior | proved | `Net.toVE`, `Net.solve`, `solveQuery` | C23, with enumeration of complete worlds as specification |
| C32 | Impossible evidence yields NaN for every query outcome | proved | same, run on numbers with NaN and infinities (`Ext`) | runs on `K` carry over to `Ext K` (`Lemmas/Transfer*`) up to the last division, which is 0/0 |
| C33 | Query answers are probability distributions | proved | same | from C31 |
| C34 | Scaling a table row has no effect | proved | same | row-normalised tables agree, so the solvers agree |
| C35 | New accepts exactly the valid structures | partial | `newNetwork` | case analysis of the checks against a declarative validity predicate; refuted for tables New does not check |
| C36 | Unknown names and outcomes are reported as errors, not panics | proved | `Net.solve` and its callers | case analysis |
| C37 | SolveQuery handles query variables that are in the evidence | partial | same | refuted; partial for disjoint query and evidence |
| C38 | Queries do not change the network | proved | state machine of calls | solving reads only immutable fields and policies |
| C39 | SolvePolicies is repeatable | proved | same; the whole of `solvePolicies` | policies are cleared first; two runs with different schedules keep equal tables step by step |
| C40 | ignorePolicies turns evidence on a decision into an intervention | proved | `policyFactors` | factor lists with and without the policy |
| C41 | ToEvidence is one-hot | partial | `toEvidence` | refuted for fresh networks; partial after a query |
| C42 | Row of a network factor returns the table row | partial | `NFactor.row` | refuted for more than one column; partial for one |
| C43 | Utility weights are matched by name | proved | `prepareUtilityWeights` and C25 | index lemma |
| C44 | Network.Rearrange puts the named variables where asked | proved | `rearrangeVariables` | permutation lemma and C13 |
| C45 | Outcome counts are preserved when solving | partial | `toVE` with its uint16 conversion | refuted at 65536; partial below |
| C46 | SolvePolicies returns well-formed policy tables | proved | `Net.solvePolicies` | from C18 |
| C47 | Two-operand and one-operand logic operators match their formulas | proved | `logic/*.go` tables | binary-digit lemmas, induction on the number of parents |
| C48 | Counting operators count the parents that are True | proved | `logic/*.go` tables | binary-digit lemmas, induction on the number of parents |
| C49 | bits reads the parents as a binary number | proved | `logic/*.go` tables | binary-digit lemmas, induction on the number of parents |
| C50 | given operators test the parent at the given index | partial | `logic/*.go` tables | binary-digit lemmas, induction on the number of parents; refuted (index counts from the last parent) |
| C51 | outcome operators compare the parent's outcome index | partial | `logic/*.go` tables | binary-digit lemmas, induction on the number of parents; refuted (greater is ≥) |
| C52 | Every logic table is a complete conditional distribution | proved | `logic/*.go` tables | binary-digit lemmas, induction on the number of parents |
| C53 | A logic node's table depends only on its own definition | proved | registry of operators as shared mutable state | induction over histories |
| C54 | Logic factors obtained separately are independent | partial | same | refuted (one shared instance per name); partial |
| C55 | Saving and loading a network preserves its meaning | proved | `toYaml`, `fromYaml` on the decoded document | chunk/flatten lemmas |
| C56 | Saving and loading preserves the description and colours | partial | same | refuted (description and colours are dropped); partial |
| C57 | YAML node definitions are flattened faithfully | partial | `toTable`, `fromYaml` | map lemmas; refuted for malformed rows that are accepted |
| C58 | BIF-XML definitions are matched by name | partial | `fromBifXml` on the decoded document | map lemmas; refuted (missing definition: nil dereference) |
| C59 | Positions are parsed from `position = (x, y)` | proved | `parsePosition` on character lists | trimming and number-parsing lemmas |
| C60 | Training yields relative frequencies | proved | `Trainer` state machine | what a sample adds does not depend on the state; induction over samples |
| C61 | Trained utilities are sample means | partial | same | refuted (utility counter is increased twice); partial |
| C62 | Training does not depend on sample order | proved | same | calls add up; addition commutes |
| C63 | Missing values only affect their own nodes | partial | same | as C60; refuted |
| C64 | UpdateNetwork fails exactly if a table row has no sample | partial | `updateNetwork` | case analysis; refuted (decisions with tables) |
| C65 | Training from CSV skips missing values | partial | `trainNetwork` on CSV rows as lists of strings | refuted for missing utility values; partial |
| C66 | Evidence arguments are parsed strictly | proved | `parseEvidence` on character lists | induction |
| C67 | Bounds.Extend is the smallest enclosing rectangle | proved | `Bounds` on integers | linear arithmetic; induction over the nodes |
| C68 | The table view labels rows with the right parent outcomes | proved | `getCell` | digits lemma |
| C69 | The interactive selection always points to an existing outcome | partial | event state machine of the app | invariant; refuted by a mouse selection |
| C70 | Nodes stay on the canvas | partial | same | invariant; refuted by a file with negative positions |
| C71 | Toggling evidence twice restores it | proved | same | case analysis per event; induction over sessions |
| C72 | Displayed utilities are conditional expectations | proved | `tuiSolve` | from C25-C27, C31, C75 |
| C73 | The no-data option of bbni is honoured | partial | `tui.New` and its training call | refuted (argument dropped); partial |
| C74 | Decisions solved together are jointly optimal | proved | `VE.solvePolicies` | backward induction over the decision order |
| C75 | Network.SolveUtility is the weighted utility sum by enumeration | proved | `Net.solveUtility` | C25/C26 moved to worlds |
| C76 | NewTrainer works for every network New accepts | partial | `newTrainer` | refuted (variable without a table); partial |
| C77 | Training leaves the weights of total utility alone | partial | `updateNetwork` | refuted; the weights after training are derived from C61 at the row of the total-utility node |
| C78 | Displayed probabilities are posteriors | proved | `tuiSolve` and the app | from C31, by an invariant over sessions |
| C79 | Sessions without impossible choices never crash | proved | the app: start, keys, mouse, drawing | every drawing operation stays inside its grid; invariant over sessions |
| C80 | A policy depends only on the decision's parents | partial | `Net.solvePolicies` | scope invariant of the kept factors; refuted (other open decisions); partial |
| C81 | Policies solved together are optimal | proved | same | C74 moved to network worlds |
| C82 | The last decision's policy is a best response in every situation | proved | same | C29 moved to network worlds |
| C83 | Policies solved step by step are best responses | proved | same, stepwise | induction over the steps |
| C84 | SolveUtility reports what the policies achieve | proved | `Net.solveUtility` after `solvePolicies` | the stored policies are the solver policies |
| C85 | Solving step by step is as good as solving together | partial | stepwise against joint | refuted by a network where the first decision informs the second; partial |
| C86 | A variable with known parents follows its table | proved | `Net.solveQuery` on acyclic networks | summing out barren variables; cycle counterexample shows acyclicity is needed |
| C87 | What is not above the question has no influence | proved | same | as C86 |
| C88 | Answers of different queries fit together | proved | same | law of total probability on worlds |
| C89 | The order in which things are passed to New does not matter | proved | `newNetwork` and all queries | sums over worlds are invariant under permutation of variables and tables |
| C90 | A node's box shows exactly its present numbers | proved | `Node.render` and its parts | cell-by-cell lemmas on grids |
| C91 | The canvas shows the present state | proved | `render` of the app | last writer wins; boxes that do not overlap; invariant over sessions |
| C92 | Edges are arrows from parent to child | partial | `renderEdge*` | cell-by-cell lemmas; refuted for touching boxes; partial |
| C93 | Rounding errors of a query are bounded | proved | `Net.solveQuery` on any arithmetic with relative error ≤ u | the code is run on pairs (rounded, exact); each factor carries the number of roundings its entries may have |
| C94 | Saving in the app keeps the network | proved | `saveNetwork`, `FromFile`, file names | string lemmas; saveability is an invariant of sessions; C55 |
| C95 | bbn inference prints exact posteriors | proved | `bbn inference` | C31/C72 and text lemmas |
| C96 | bbn train prints relative frequencies | proved | `bbn train` | C55, C60 and C65 |
| C97 | Solved decisions behave like chance variables | proved | `SolvePolicies`, `SolveQuery`, `SolveUtility`, `New` on the structure with decisions redeclared | the joint distribution with the stored policies equals the joint distribution of the redeclared network, world by world; then the exactness of queries (C31) and of utilities (C75) on both sides; C86 for the total |
| C98 | Separated observations do not change an answer | proved | `SolveQuery` on acyclic networks | the variables that matter for the answer split into those a trail from the queried variable reaches and the others; no table links the two except through observed variables; the sums factorise and the factor of the other part cancels |
| C99 | With all earlier information declared, stepwise solving is optimal | proved | `SolvePolicies` step by step, `SolveUtility` | exchange argument from the first to the last decision: replacing one more strategy by its policy does not lower the expected utility, as the policy is a best response (C83) and all earlier decisions depend only on what is still known; with C81 the value equals that of solving together |
| C100 | More information never hurts | proved | `SolvePolicies`, `SolveUtility` on two networks | strategies in the less informed network are strategies in the other, with the same expected utility; then C81 on both |
| C101 | Utilities can be given in any unit | proved | `SolvePolicies`, `SolveUtility` on two networks | both networks have the same strategies, with expected utilities in the given proportion; C81 on both |
| C102 | The screen of bbni shows the picture of the network | partial | `updateCanvas`, `render`, `colorTags`; the widget reads tags (`Spec/Screen.Reads`) | the text is read back line by line; which rows have no tag follows from C91; refuted for names like tags; partial |
| C103 | Boxes are shown in their colours | partial | `nodeColor`, colours of `renderNodes`, `clearCanvas`, `updateCanvas` | invariant of sessions: colours of the canvas are those of the boxes; then reading back; refuted at line starts; partial |
| C104 | At most one dialog is open, it gets the keys, and closing it changes nothing | proved | `internal/tui/app.go`, `input.go`: pages, focus, handlers (`Model/TuiPages`) | invariant of all input sequences (pages and focus agree); refinement: every session is, behind the dialogs, a session of `App.session` with some of the inputs |
| C105 | The table page shows the table of the selected variable; the border tells whether policies are ignored | proved | `showTable`, `Table.GetCell`, `toggleIgnorePolicy` | invariant: content and title of an open table page are those of the selection; tables of the nodes are those of the network or the solved policies; C68 for the cells |
| C106 | SolvePolicies returns policies for every network that New accepts | partial | `SolvePolicies` of network and solver, `startApp`, `runInference` | invariant: no factor of the solver ever has the unused decision, through products, sums, elimination and stored policies; each successful step of the stepwise mode solves another open decision, so the steps end while the unused one is open; the topological sort succeeds only if every decision among the parents of an open decision is open, so no decision of a cycle is ever solved; the converse is C46 |
| C107 | Expected utilities add up, average, and stay within the table | proved | `Net.solveUtility`, `Net.solveQuery` (all calls separate, each with its own iteration order) | `C107_total`, `C107_average`, `C107_between`: both calls are sums over all worlds (C25, C28); sums are split over the outcomes of the additional variable; non-negative weights give the bounds |
| C108 | Only the content of a network matters, not names or orders | proved | `Net.solveQuery`, `Net.solveUtility`, `Net.solvePolicies`; `Net.SameContent` (Spec/Iso) is a relation between two networks, given by a renaming and a permutation of the outcomes of each variable | `C108_query`, `C108_evidence`, `C108_utility`: the answers are sums over worlds (C31, C75), worlds correspond one to one, weights agree; `C108_decisions`: strategies correspond, both values are optimal (C81) |
| C109 | The policies from SolvePolicies can be carried out | partial | `Net.solvePolicies` (both modes), `sortTopological`, `Net.solveUtility`, `Net.solveQuery`; `Net.Timed` (Spec/Timed) is a time for every variable | refuted: `C109_refuted`. `C109_partial`: the order of solving is the listed one if that respects the declared order (`C81_listed`, `C83_listed`, `sortTopological_listed`), each policy uses only what comes earlier; then all variables can be summed out from the last to the first (`strategies_one`) |
| C110 | Moving the zero of the utilities moves the reported utilities by as much | proved | `Net.solveUtility`, `Net.solvePolicies`; `Net.shifted`, `Net.totalShift` (Spec/Shift) build the second network and the difference | `C110_report`: the reports are sums over worlds (C75, C31), the utility of every world moves by the same number (`shifted_total`); `C110_best`: the worlds have total weight one under every strategy (`strategies_one`), strategies are the same, both values are optimal (`C81_listed`) |
| C111 | Networks of logic nodes compute what the circuit computes | proved | `Net.solveQuery`, logic tables (`LHeap.table`); `Net.Circuit`, `Net.Evaluates`, `Net.circuitMass` (Spec/Circuit) say what gates are and what the circuit computes | `C111_circuit`, `C111_inputs`: for each outcome of the inputs exactly one world has positive weight (`run_unique`, `sumWorlds_single`), then C31; `C111_logic`: tables of operators (C47 to C51) make gates; every circuit can be evaluated (`circuit_evaluates`) |
| C112 | Trained tables fit the samples best | proved | `trainRun`, `updateNetwork`, `Net.solveQuery`; `Sample.Complete`, `Sample.evidence` (Spec/Likelihood) make a sample a case; `SameNetwork` is any other choice of tables | `C112_fit`: the probability of a complete case is the product of its table entries (`complete_likely`); per table, ratios to the relative frequencies (C60) are at most one on average (`frequencies_average`, exchange of sums), so their product is at most one (`prod_le_one_of_average`, by smoothing; no logarithms) |
| C113 | A trained network answers with relative frequencies | proved | `trainRun`, `updateNetwork`, `Net.solveQuery` | `C113_frequencies`, `C113_parents`: trained rows sum to one (`trained_row`), what a sample shows is possible (`trained_possible`), then C86 and C60 |
| C114 | Rounding errors of expected utilities | proved | `Net.solveUtility` and all that it calls, over numbers with rounded arithmetic of any sign | `C114_rounding`, `C114_expected_utility`: the call is run on triples (rounded number, exact number, magnitude); every operation adds a number of roundings that is bounded by an induction over the elimination (`solveUtility_has`); the components of the result are the results on the three networks (`solve_map`), the last two exact by C75 |
| C115 | Policies solved with rounded arithmetic are nearly the best | proved | `Net.solvePolicies` with `stepwise` and all that it calls, over numbers with rounded arithmetic of any sign | `C115_rounding`: invariant of the loop over the decisions (`rounded_loop`); one step (`rounded_step`) compares the call on the rounded network, in which the policies found so far are stored, with the exact expected utilities by C114 on triples, and the largest entry of a row with all others; the rows of a policy are equal shares of one, with two roundings (`share_within`) |
| C116 | A solver object can be asked again | partial | `VE.solveQuery`, `VE.solveUtility` on a state that earlier calls have left behind (`VE.askAll` calls one after the other) | False: `C116_dropped_observation_panics`, `C116_summed_out_lost`, `C116_utility_after_query_panics` for all problems, `C116_refuted` on the umbrella problem. `C116_asked_again_partial`: invariant `Asked` (what the tables left over mean, which variables are marked) kept by each question that repeats the observations and leaves alone what was summed out; induction over the questions. |
| C117 | SolveQuery answers or panics, and when | proved | `VE.new`, `VE.solveQuery` and all that they call | `C117_answers_iff`: the positive side is C23; for the other, the loop over the hidden variables either has panicked before or comes to the variable without table, and no step adds it to a table (`removeHidden_list_lost`). |
| C118 | The same query gives the same numbers on every run | partial | as C93; two calls with two schedules | False: `C118_refuted`, a network with three variables in 53 bit arithmetic, evaluated by the kernel for two iteration orders. `C118_close_partial`, `C118_bayesian_partial`: C93 for both calls, and `Within` is transitive. |
| C119 | The same network gives the same policies on every run | partial | as C115; two calls with two schedules | False: `C119_refuted`, evaluated by the kernel in both ways of solving. `C119_clear_partial`: where the best outcome is better by more than the error bound of C115, every run takes it; induction over the decisions from the last, the later policies being pure up to a constant factor. `C119_same_partial`: two such runs agree. |
| C120 | Integers never wrap around | partial | `ve/factor.go`, `ve/variables.go`, `ve/ve.go`, `network.go` once more with sizes and positions in a parameter `Mach`: 64-bit words, unbounded, or unbounded with a stop at `2^63` | False: `C120_refuted`, 64 coins asked for together, evaluated by the kernel. Sizes and positions are computed by ring operations, so the 64-bit result is the unbounded one modulo `2^64` (`C120_create`, `C120_index`, ...). A run that stops at `2^63` is refined by both other runs (`C120_careful_partial`, by induction over the code); with less than `2^63` combinations of outcomes it does not stop before the unbounded run, since every table is over different variables of the network (`C120_query_partial`, `C120_utility_partial`, `C120_policies_partial`, `C120_operations_partial`). |
| C121 | Possible evidence gets a number in float64 | partial | `Net.solveQuery` over any arithmetic that meets `RangedRounding val u lo hi` of `Spec/Rounding`: a relative error of at most `u` as long as the operands and the exact result are in `[lo, hi]` or zero, and nothing known otherwise | False: `C121_refuted`, two alarms with small probabilities, evaluated by the kernel over a `float64` with underflow, infinity and NaN (`Ex.F64`, proved to meet the specification with the range `2^-1022 .. 2^1023`). What holds: a number is graded by the number of roundings and halvings it is away from 1, the grades add up along the run of the solver (`Grading`, the induction of C93 over any such grading), so a budget `B` with `2^-B` and `2^B` in range suffices (`C121_range_partial`, `C121_bayesian_partial`). |
| C122 | The factor from SolveQuery is the joint posterior | proved | `Net.solveQuery`, `Net.rearrange`, `Net.normalize` | `C122_joint`: the outcomes of the variables of the factor are put in as further evidence, and the sum over the worlds that agree with all of it is the sum over the hidden variables that the solver computes, times the number of outcomes of the variables that occur nowhere. `C122_table`: the same after `Rearrange` (C44), with the position of each number. `C122_repeat`: two runs. |
| C123 | Returned tables have the same layout on every run | partial | `Net.solvePolicies`, `Net.solveQuery` under two schedules | False: `C123_refuted_policies` and `C123_refuted_query`, evaluated by the kernel. `C123_policies_partial`: policy tables with at most one parent are equal, from C39. For more parents the entries of each situation are equal (C39), and factors are equal after `Rearrange` (`C122_repeat`). |
| C124 | More options and higher utilities never hurt | proved | `Net.solvePolicies`, `Net.solveUtility` (C81) | `C124_options`: every strategy for the smaller network is one for the larger network that never chooses further outcomes; worlds with such an outcome then have weight zero, the others count at least as much. The policies for the larger network are at least as good (C81). |
| C125 | Repeating all data does not change what is learned | proved | `newTrainer`, `addSample`, `updateNetwork` | `C125_repeated`: sums and counters of the trainer are multiples of those for the data itself, because samples add up (as in C62), and the update divides one by the other. |
| C126 | Training forgets the old tables | proved | `newTrainer`, `addSample`, `updateNetwork` | `C126_forgets`: both trainers have the same sums and counters, so both updates succeed, and they write every entry. `C126_again`: the trained network differs from the original only in numbers. |
| C127 | Small errors in the tables make small errors in the answers | proved | `Net.solveQuery`, `Net.solveUtility` (C31, C75) | `C127_close`, `C127_possible`, `C127_utility`: the weights of all worlds in the two networks differ by at most twice the sum of the amounts, by induction along the order of the variables (`close_products`); an answer is a quotient of sums of weights. `Net.Near` and `Net.distance` are in `Spec/Near`. |
| C128 | Observing what is certain changes nothing | proved | `Net.solveQuery`, `Net.solveUtility` (C31, C75) | `C128_certain`, `C128_utility`, `C128_settled`: the worlds that agree with the evidence but not with the certain outcome have total weight zero, hence each of them has. |
| C129 | A network can be asked by several goroutines | partial | `Program`, `Goroutine`, `Stage`, `Program.step` (`Model/Goroutines`): the calls of `Net.solveQuery` and `Net.solveUtility` split where the network is read or written; a step is atomic | `C129_apart_partial`, `C129_locked_partial`, `C129_own_network_partial`: invariant over all executions; `C129_posteriors_partial`: hence the posteriors of C31. Refuted without the proviso: `C129_overlap_refuted` is an interleaving of two calls on the sprinkler network in which one gets the prior instead of the posterior. |
| C130 | Networks do not influence each other | partial | `Memory`, `MNet`, `memNew`, `memUpdate` (`Model/Memory`): slices and pointers are references to arrays of the memory | `C130_update_partial`, `C130_new_partial`: refinement, the memory model does what `newNet` and `updateNetwork` do; `C130_others_partial`, `C130_new_others_partial`: frame conditions; `C130_in_turn_partial`: induction over the sequence of training runs. Refuted for shared slices: `C130_table_refuted`, `C130_factors_refuted`, `C130_twins_refuted`. |
| C131 | SolveQuery answers, returns an error or panics: exactly when | partial | `Net.solveQuery` | `C131_query_partial`: errors by C36, answers by C37 and C31, and panics because the marginal of a variable that is not in the factor panics (`solveQuery_lost_net`). Refuted for evidence about utility variables: `C131_utility_evidence_refuted`. |
| C132 | SolveUtility returns utilities or an error | partial | `Net.solveUtility` | `C132_total_partial`: errors by C36; answers by C75, for utility variables in the query by `solve_stateQuery` (they are ignored). Refuted: `C132_probabilities_refuted` shows for all networks that the call for a variable without utilities is the call of SolveQuery. |
| C133 | Train, store, ask: the command line prints relative frequencies of the data | proved | `trainCommand`, `inferenceCommand` with the files in between; reading back what the YAML library wrote is a hypothesis (`hyaml`) | `C133_train_then_ask`: the trained network answers with frequencies (C113), the stored network is a valid network of the same meaning (`Net.Saveable.reload_valid`), and the printed text is that of its posteriors (C95). |
| C134 | How much memory a query needs depends on the graph only | proved | the whole query path with every table made through a machine (`Net.solveQueryM`), here the machine `Mach.memory L`; the game in Spec/Cost.lean is stated on sets of places only | `C134_query_fits_iff_biggest_table`, by induction over the variables taken out: every step of the machine path either equals the exact step or ends with the panic; `C134_taken_out_in_one_order` (the order exists and is unique) and `C134_memory_need_ignores_numbers`. |
| C135 | Networks with at most one parent for each variable are answered with small tables | partial | as C134 | `C135_small_tables_in_trees_refuted`: the two degrees are computed for all m, so the root precedes its children in the order, and variables that occur together stay together until one is taken out; `C135_small_tables_around_line_partial`: while variables with at most one neighbour are taken out, no set grows; afterwards all are on the line, and no set spans a remaining variable of the line between two of its members. `C135_small_tables_children_first_partial`: the same with k^(2+q) for all networks with at most one parent per variable in which variables happen to be taken out before their parents. |
| C136 | Observing more variables never needs more memory | partial | as C134 | `C136_more_evidence_less_memory_refuted`: without evidence children precede their parents, so C135's second positive part bounds the tables; with one child of the root observed, the root has as many neighbours as its other children and precedes them. `C136_more_evidence_same_order_partial`: every set with more evidence is contained in one with less, and taking out keeps this. |
| C137 | Between two opinions, answers are in between | partial | the network model and solver of C31; `Net.Mixes` (Spec/Mix.lean) says in terms of normalised probabilities what it means to lie between two networks | the joint probability of a world is a product with one factor per variable (`joint_kernel`), so it is linear in the probabilities of one variable; sums over worlds are linear too, and C31 says that answers are quotients of such sums. The refutation uses C31 on a network with three variables, for every schedule. |
| C138 | Only the joint distribution matters, not the arrows | proved | the network model and solver of C31 and C75; `Net.SameVars`, `Net.SameChances` (Spec/SameJoint.lean) | C31 expresses answers by sums over worlds of the joint probability; these sums agree for the two networks up to the constant, which cancels. For the corollaries the joint probability is split into one factor per variable (`joint_kernel`). |
| C139 | A sensor's reading multiplies the odds | proved | the network model and solver of C31 | C31, and the lemma behind C86 that a variable without observed descendants contributes its table entry; the second part from C138, whose hypothesis asks only for situations that agree with the evidence |
| C140 | It never helps not to know which of two experts is right | proved | the network model and solver of C75 and C81; `Net.Mixes` (Spec/Mix.lean), `Net.SameForm` (Spec/Undecided.lean) | for fixed strategies the expected utility is linear in the mixture (`mix_total`, `mix_utilities`); the strategies returned for the mixture can be used in both networks, where by C81 they are not better than the policies returned there |
| C141 | Chance variables that nothing depends on do not change expected utilities or the value of decisions | proved | the network model and solver of C75 and C81; `Net.SameAbove` (Spec/Acyclic.lean), `Net.lookedAt`, `Net.deciding`, `Net.SameUtilities`, `Net.SameDecisions` (Spec/Aside.lean) | what is not in the common part is summed out from below, each variable with sum one (`total_same`); a strategy for one network is used in the other one by fixing what is not common, which changes no expected utility; so by C81 each optimum is at most the other |
| C142 | An option that is always worse than another is never recommended | proved | the network model and solver of C82; `Net.totalIn`, `Net.prob`, `Net.entry` (Spec/Network.lean) | by C82 an option with positive probability has the highest expected utility among what is known; the expected utility of the worse option is a sum over the same worlds with the same nonnegative weights, smaller in each term with positive weight (`sumWorlds_lt`) |
| C143 | Options that are never chosen can be left out | proved | the network model and solver of C81; `Net.OffersMore`, `Net.NeverChosen` (Spec/Options.lean) | the policies of the larger network become strategies of the smaller one if the first option gets what the further options had; where a situation can occur this is nothing, so the expected utility stays the same; so by C81 the optimum of the smaller network is at least that of the larger one; the converse is C124 |
| C144 | A network with tables that do not fit never gives numbers | proved | the network model and solver of C35; `Net.Plain`, `Net.Unknown`, `Net.WrongSize`, `Net.Usable`, `Net.Unweighted` (Spec/Malformed.lean) | every step of the loop over the tables fails for such a table whatever the state, and succeeds for a usable one whatever the state; induction over the list of tables, then through the three calls |
| C145 | A variable without numbers is not taken as equally likely: all answers are NaN | proved | the network model of C35, over any arithmetic; the number system with NaN of C32; `Net.filled` (Spec/Malformed.lean) | setting up the solver gives the same solver for both networks (induction over the tables), and the calls use the tables only for that; then C32, since every world has weight zero |
| C146 | A chance variable without a table is taken as equally likely if something depends on it, and makes every query panic otherwise | proved | the network model of C35; `Net.tableless`, `evenTable` and `Net.evened` (Spec/Forgotten.lean) say what is missing and what is filled in | the solver's factors for the filled-in network are those of the network plus constant factors; so all world weights differ by one nonzero constant, which normalising removes. For the panic: the eliminated or asked-for variable is in no factor, and the product of no factors panics |
| C147 | Outcomes that nothing distinguishes can be merged | proved | the network model of C31 and C75; `Net.Merges` (Spec/Merge.lean) says what merging is, by the probabilities of both networks | the situations of the fine network are grouped by those of the coarse one: the sum over the variable's outcomes is taken innermost and regrouped; then C31 and C75; with decisions, ways to decide are carried over in both directions (Props/NetSameValue.lean), then C81 |
| C148 | A variable in between can be left out | proved | the network model of C31 and C75; `Net.Absorbs` (Spec/Absorb.lean) says what is left out, by the probabilities of both networks | the sum over the variable's outcomes is taken innermost; the probabilities of all but its child do not depend on it and come out of the sum; then C31 and C75; with decisions, ways to decide are carried over in both directions (Props/NetSameValue.lean), then C81 |
| C149 | Trying the options one by one shows that the recommended option is the best | proved | the network model of C31, C75 and C81 and the app model of C69 to C79; nothing is added | C81 gives the value of the policies as a maximum over strategies; a strategy that takes the option only if the evidence holds and follows the policies otherwise splits the value into the part where the evidence holds and the rest; equality follows because all worlds that agree with the evidence share what is known; the probability of the evidence does not depend on later decisions (Lemmas/Before.lean, by induction over the variables in time); the app version by C72 and uniqueness of the answers |
| C150 | In every situation that can occur, the policy takes exactly the best options, evenly | proved | the network model of C82 and C83; nothing is added | the table from which the policy is read is the worth of an option divided by a factor that does not depend on the option; Lemmas/Ties.lean shows by induction over the eliminated variables that this factor is positive if the situation can occur, so that the comparison of table entries is the comparison of worths in both directions |
| C151 | How likely a situation is does not matter for what to do in it | proved | the network model of C83; a network with replaced tables is a map over the list of its tables (Spec/Replace.lean) | from C150: what an option is worth has the replaced probabilities as a positive factor that is the same for all options, so the same options are best; backward induction over the decisions carries this from the later decisions to the earlier ones |
| C152 | Information that says nothing about the rest does not change what to do | proved | the network model of C83; nothing is added | from C150, as C151: the table of the variable is a positive factor of what each option is worth, and nothing else of it depends on the variable except the later policies, for which it follows by backward induction |
| C153 | Trying the options by hand gives exactly the policy | proved | the network model of C46 and C40; the largest of the numbers are taken by `bestOutcomes`, the specification used in C26 | from C150 and C149: a call with all parents and the option observed sums over the worlds that differ only in what the decision does not know, which is what the option is worth in C150; the part of the sum over the observed variables has one summand |
| C154 | Rolling back the decision tree by hand gives the value of the solved network | proved | the network model of C46 and C40; the textbook procedure is the recursive function `rollback` of `Spec/Tree.lean`, which knows nothing of the network except the numbers at the leaves | by induction over the timeline, for all strategies: no strategies that know what comes before are worth more than the tree, and deciding as the tree says is worth as much; then C99 and C81 (the solved policies are the best such strategies, and `SolveUtility` reports what they are worth); the leaves by C75 |
| C155 | At every node of the decision tree the solved network knows the value | proved | the network model of C46 and C40; `rollback` and `Timeline` of `Spec/Tree.lean` | by induction over the timeline from its end: C83 or C156 (each policy is a best response in every world) turns the average over the outcomes of a decision into the largest branch; then C75 for the path as evidence, with the sum over the observed variables reduced to one summand |
| C156 | Solved together, every decision answers the later ones in the best way | proved | the solver and network models of C28 and C46; `worthAmong` of `Spec/Each.lean` | by induction over the decisions from the last to the first: the first policy solved is a best response to the product of the remaining tables; the sum over what is unknown moves past each elimination; then carried from the solver to the network as in C81 |
| C157 | The answer of today is the prior of tomorrow | proved | the solver and network models of C28 and C46; separation as in C98 (`Net.Separated`) | the new network's joint distribution is the old one times a factor that depends only on the variable; the separation splits the sums for every value of the variable into a product, so that the factor is the same as the one from the first observations |
| C158 | As one number in a table varies, every answer is a quotient of two straight lines | proved | the solver and network models of C28 and C46; `Net.withEntry` of `Spec/Replace.lean` | the sum over all worlds, multiplied by the sum of the row, is linear in the entry, because each world contains at most one entry of the row; the answers are quotients of such sums by C31 and C75 |
| C159 | For a variable without parents, observing an outcome is the same as making it certain | proved | the solver and network models of C28 and C46 | world by world, the joint weight of the new network is zero if the variable has another outcome, and otherwise that of the old network divided by the probability of the outcome; then C31 on both sides |
| C160 | As long as decisions are open, queries treat them as taken by chance with all options equally likely | proved | the solver and network models of C28 and C46 | world by world, the joint weight of the network with tosses is that of the network with decisions times a constant, the product of one over the number of options of each decision; then C31 on both sides |
| C161 | What to do depends on the joint probabilities and the total utility only | proved | the solver and network models of C28 and C46 | C150 says that the policy spreads evenly over exactly the best options, as seen from the sum of probability times utility over what is hidden from the decision; these sums of the two networks are the same up to a positive factor, by induction from the last decision to the first; a constant adds the same to all options, because the probabilities summed over what is hidden from a decision do not depend on what is decided; for the value, C84 says that SolveUtility reports the expected utility of following the policies, and in every situation with non-zero probability the policies of the two networks agree; with a constant, the probabilities of all worlds sum to one |
| C162 | Only the trained tables fit the samples best | proved | the trainer model of C60 and the network model of C23 | if the product of the ratios of other entries to trained entries is one although their average is at most one, all ratios are one; where no sample is, the trained entries are zero, and the others have to be too, because a row sums to at most one; C138 then gives the answers |
| C163 | Training gives back the probabilities that the data follow | proved | the trainer model of C60 and the network model of C23 | the number of samples in a table row is a sum over all situations; in the joint distribution a variable with given parents follows its table (the lemma behind C86), so the quotient of the two sums is the probability; C138 then gives the answers |
| C164 | Decisions learned from data are those of the network that the data follow | proved | the trainer model of C60 and the solver model of C30 | C163 gives the probabilities, C61 the halved averages; the total utility is then the right one times one half, and C161 says that a positive factor does not change decisions and multiplies the reported value; C166 gives the answers after evidence |
| C165 | Two data sets together give the weighted average of each | proved | the trainer model of C60 | the entries are quotients of numbers of samples (C60) or of sums and numbers of utility values (C61), and both add up over the data sets; C64 says when training reports an error |
| C166 | What a solved network answers depends on the joint probabilities and the total utility only | proved | the solver and network models of C28 and C46 | by C161 the stored policies of the two networks agree in every situation with non-zero probability, so the weights of all worlds (probabilities times policies) are the same up to the factor; C75 and C31 say that the answers are sums of these weights |

## 4. Which code is modelled

| Go file | modelled | not modelled |
|---|---|---|
| `ve/variable.go`, `ve/factor.go`, `ve/variables.go` | everything; accessors are record fields | memory |
| `ve/ve.go` | everything; debug prints are comments in the source | - |
| `network.go` | everything; `FromFile` with the decoders as parameters; `New` also with shared slices (`Model/Memory`); `SolveQuery` and `SolveUtility` also as steps of concurrent goroutines (`Model/Goroutines`) | reading bytes from disk; data races within a step |
| `logic/*.go` | everything, including the shared registry | - |
| `yml.go` | conversion between decoded documents and networks, `toTable`, `ToYAML` | the YAML text codec (`gopkg.in/yaml.v3`): assumed to decode what it encoded, as a hypothesis of C94 and C96 |
| `xml.go` | conversion of decoded documents, `parsePosition` | the XML decoder (`encoding/xml`) |
| `training.go` | everything; `UpdateNetwork` also with shared slices (`Model/Memory`) | - |
| `internal/tui/training.go` | everything after CSV decoding | the CSV decoder (`encoding/csv`) and opening files: a parameter |
| `internal/tui/solve.go`, `bounds.go`, `table.go`, `node.go`, `color.go`, `util.go`, `symbols.go` | everything | widgets of `tview` around table cells |
| `internal/tui/app.go` | `New`, `Run`, the pages and which handlers they have | widgets and layout of `tview`, the texts of the help page |
| `internal/tui/input.go` | everything: changes of the network, evidence, selection, files; pages, focus, border, the place of a click | the widgets' own reaction to the mouse (a widget of `tview` may take the focus when a button is pressed on it), the height of the table page |
| `internal/tui/render.go` | everything: runes, colours, the text with its tags | how `tview` draws a text (its reading of tags is specified in `Spec/Screen`) |
| `cmd/bbn`, `cmd/bbni` | what the commands do with their arguments, and what they print | `cobra` argument parsing, exit codes |
| `benchmark/` | - | all |

Each definition cites its lines; simplifications are stated in its comment.

## 5. Trusted base

### 5.1 Logic

Lean's kernel and the three standard axioms (`propext`, `Classical.choice`, `Quot.sound`). No axioms are added; there is no `sorry`,
`admit`, `native_decide` or `bv_decide`. Examples on concrete networks use `decide`, `decide +kernel` or `norm_num`; they only show
that hypotheses can be met (or refute a claim) and prove no general property.

### 5.2 The model

That the Lean definitions say the same as the Go source is by reading. The seeded wrong programs show which edits of the model
the theorems notice; they do not show that the model agrees with the Go code.

### 5.3 Assumptions about the environment

* `float64` is replaced by exact numbers, by `Ext` or by rounded numbers, as said in section 1. Signed zeros are not modelled;
  underflow and overflow by rounding are treated for `SolveQuery` only (C121), where numbers outside the range may be anything.
* `int` is unbounded, except in `Model/Machine` and `Model/MachineSolver`, where sizes and positions of tables have 64 bits (C120).
  The memory is unbounded. `uint16` conversions of outcome counts are modelled (C45).
* Slices and pointers are values, except in `Model/Memory` (C130), where they refer to arrays that may be shared. Calls run one
  after the other, except in `Model/Goroutines` (C129), where the steps of several calls alternate; each step is atomic.
* A map iteration visits each key once, in an order that does not depend on the stored numbers.
* Library functions are parameters where their result matters: the float formatting `Fmt` of the app and the commands
  (hypotheses `ExactTexts` and `ExactBars` say what exact formatting is), `ParseFloat`, the YAML/XML/CSV decoders.
* `slices.SortFunc` on distinct keys returns the one sorted list; `slices.SortStableFunc` is a stable sort (`stableSort`, equal to the library's `mergeSort` on these keys by `stableSort_eq`).
* `strings.*`, `strconv.Atoi` and `path/filepath` functions in use are modelled on lists of characters (`Model/Strings`,
  `Model/Commands`).

### 5.4 Axioms per theorem

From `#print axioms` on every theorem of the manifest. `P` = `propext`, `C` = `Classical.choice`, `Q` = `Quot.sound`.
No other axiom occurs.

| axioms | theorems |
|---|---|
| P | `C20_createFactor`, `C35_no_table_refuted`, `C41_fresh_refuted`, `C67_contains` |
| P C Q | `C02_odometer_row_major`, `C04_indexWithNoData`, `C05_row`, `C06_product_pointwise`, `C07_product_perm`, `C07_product_assoc`, `C08_sum_pointwise`, `C09_sumOut`, `C10_sumOut_order`, `C11_restrict`, `C12_restrict_order`, `C12_restrict_product`, `C12_restrict_sumOut`, `C13_rearrange`, `C13_rearrange_roundtrip`, `C14_marginal`, `C15_normalize`, `C16_normalizeFor`, `C17_normalizeUtility`, `C18_policy`, `C20_restrict`, `C20_variable_calls`, `C22_get_out_of_range_refuted`, `C22_get_out_of_range_partial`, `C23_solveQuery_exact`, `C24_elimination_order`, `C24_same_values`, `C24_same_utility`, `C25_solveUtility_total`, `C26_solveUtility_single`, `C27_total_is_weighted_sum`, `C28_order`, `C28_solved`, `C29_best_response`, `C30_single_optimal`, `C31_solveQuery_posterior`, `C31_bayesian`, `C32_impossible`, `C32_possible`, `C33_distributions`, `C34_scale_row`, `C34_nonneg_rows`, `C35_new_partial`, `C35_new_result`, `C35_new_valid`, `C36_unknown_names`, `C37_query_in_evidence_refuted`, `C37_disjoint_partial`, `C39_policies_repeat`, `C40_intervention`, `C41_after_query_partial`, `C42_row_partial`, `C42_window_partial`, `C43_weights_by_name`, `C44_rearrange`, `C44_rearrange_panics`, `C45_outcomes_refuted`, `C45_outcomes_partial`, `C46_policy_tables`, `C47_one_parent`, `C47_two_parents`, `C47_conditions`, `C48_count_compare`, `C48_count`, `C49_bits`, `C50_given_refuted`, `C50_given_partial`, `C51_greater_refuted`, `C51_outcome_partial`, `C52_complete`, `C53_node_table`, `C53_network`, `C54_shared_refuted`, `C54_partial`, `C55_round_trip`, `C55_meaning`, `C56_refuted`, `C56_partial`, `C57_loaded`, `C57_rejected_partial`, `C57_refuted`, `C57_rows`, `C57_operator`, `C58_matched`, `C58_order`, `C58_errors_partial`, `C58_refuted`, `C58_words`, `C58_loads`, `C58_panics_partial`, `C59_position`, `C59_malformed`, `C59_exact`, `C60_calls`, `C60_relative_frequencies`, `C61_refuted`, `C61_partial`, `C62_order`, `C63_refuted`, `C63_partial`, `C63_utility_partial`, `C64_refuted`, `C64_partial`, `C65_errors`, `C65_partial`, `C65_columns`, `C65_refuted`, `C66_accepted`, `C66_values`, `C67_centroid`, `C67_extend`, `C67_canvas`, `C68_rows`, `C69_partial`, `C69_refuted`, `C70_partial`, `C70_refuted`, `C71_enter`, `C71_twice`, `C71_click`, `C71_others`, `C71_session`, `C72_utilities`, `C72_total`, `C73_partial`, `C73_ignored`, `C73_refuted`, `C74_jointly_optimal`, `C75_solveUtility_exact`, `C75_expected_utility`, `C76_partial`, `C76_refuted`, `C77_refuted`, `C77_replaced_partial`, `C78_probabilities`, `C79_no_crash`, `C80_partial`, `C80_one_decision`, `C80_refuted`, `C81_listed`, `C81_optimal`, `C82_best_response`, `C83_listed`, `C83_stepwise`, `C84_utility_after_policies`, `C85_partial`, `C85_refuted`, `C86_markov`, `C86_total`, `C86_cycle`, `C87_barren`, `C88_bayes`, `C88_total`, `C88_separately`, `C89_listing_order`, `C90_box`, `C90_probabilities`, `C90_utilities`, `C90_wide`, `C91_canvas`, `C92_arrow_partial`, `C92_shown_partial`, `C92_refuted`, `C93_rounding`, `C93_bayesian`, `C94_path`, `C94_files`, `C94_saved`, `C95_printed`, `C95_errors`, `C96_delimiter`, `C96_reload`, `C96_frequencies`, `C97_settled`, `C97_total`, `C98_separated`, `C99_recall`, `C99_same_value`, `C100_information`, `C101_units`, `C102_characters_partial`, `C102_names_partial`, `C102_refuted`, `C103_colors_partial`, `C103_lost`, `C103_margin_partial`, `C103_refuted`, `C104_one`, `C104_start`, `C104_dialog`, `C104_graph`, `C104_open`, `C104_session`, `C105_table`, `C105_border`, `C106_unused_fails`, `C106_cycle_fails`, `C106_partial`, `C106_app`, `C106_inference`, `C106_refuted`, `C107_total`, `C107_average`, `C107_between`, `C108_query`, `C108_evidence`, `C108_utility`, `C108_decisions`, `C109_partial`, `C109_refuted`, `C110_report`, `C110_best`, `C111_circuit`, `C111_inputs`, `C112_fit`, `C113_frequencies`, `C113_parents`, `C114_rounding`, `C114_expected_utility`, `C115_rounding`, `C116_asked_again_partial`, `C116_dropped_observation_panics`, `C116_summed_out_lost`, `C116_utility_after_query_panics`, `C116_refuted`, `C117_answers_iff`, `C118_close_partial`, `C118_bayesian_partial`, `C118_refuted`, `C119_clear_partial`, `C119_same_partial`, `C119_refuted`, `C120_create`, `C120_create_data`, `C120_index`, `C120_get_set`, `C120_indexWithNoData`, `C120_row`, `C120_operations_partial`, `C120_query_partial`, `C120_utility_partial`, `C120_policies_partial`, `C120_handling_partial`, `C120_careful_partial`, `C120_refuted`, `C121_range_partial`, `C121_bayesian_partial`, `C121_refuted`, `C122_joint`, `C122_table`, `C122_repeat`, `C123_policies_partial`, `C123_refuted_policies`, `C123_refuted_query`, `C124_options`, `C125_repeated`, `C126_forgets`, `C126_again`, `C127_close`, `C127_possible`, `C127_utility`, `C128_certain`, `C128_utility`, `C128_settled`, `C129_locked_partial`, `C129_posteriors_partial`, `C129_overlap_refuted`, `C130_new_partial`, `C130_new_others_partial`, `C130_table_refuted`, `C130_factors_refuted`, `C130_twins_refuted`, `C131_query_partial`, `C131_utility_evidence_refuted`, `C132_probabilities_refuted`, `C132_total_partial`, `C133_train_then_ask`, `C134_query_fits_iff_biggest_table`, `C134_taken_out_in_one_order`, `C134_memory_need_ignores_numbers`, `C135_small_tables_around_line_partial`, `C135_small_tables_children_first_partial`, `C135_small_tables_in_trees_refuted`, `C136_more_evidence_same_order_partial`, `C136_more_evidence_less_memory_refuted`, `C137_one_table_partial`, `C137_no_evidence_partial`, `C137_two_tables_refuted`, `C138_same_joint`, `C138_same_tables`, `C138_turned_arrow`, `C138_utility`, `C139_sensor`, `C139_ratios`, `C140_expectation`, `C140_probabilities`, `C140_utilities`, `C141_expectation`, `C141_decisions`, `C142_dominated`, `C143_unused`, `C143_dominated`, `C144_no_answer`, `C144_unknown`, `C144_wrongSize`, `C144_unweighted`, `C145_zeros`, `C145_nan`, `C146_even`, `C146_panics`, `C147_query`, `C147_utility`, `C147_decisions`, `C148_query`, `C148_utility`, `C148_decisions`, `C149_tried`, `C149_likely`, `C149_one_decision`, `C149_shown`, `C150_stepwise`, `C150_together`, `C151_stepwise`, `C152_stepwise`, `C153_whatif`, `C154_tree`, `C155_node`, `C156_answer`, `C157_update`, `C158_answer`, `C158_between`, `C158_utility`, `C159_seeing`, `C160_toss`, `C161_one`, `C161_same_worth`, `C161_affine`, `C161_units`, `C161_zero`, `C161_value`, `C161_affine_value`, `C162_tables`, `C162_answers`, `C163_tables`, `C163_acting`, `C163_answers`, `C164_value`, `C164_acting_value`, `C164_answers`, `C164_half`, `C164_decisions`, `C164_acting`, `C165_enough`, `C165_probabilities`, `C165_utilities`, `C166_answers`, `C166_posterior` |
| P Q | `C01_index_outcomes_bijection`, `C01_index_injective`, `C02_data_layout`, `C03_set_get`, `C19_ids_unique`, `C20_index_calls`, `C21_reused_id_refuted`, `C21_distinct_ids_partial`, `C28_order_unique`, `C35_unknown_parent_refuted`, `C38_queries_only_read`, `C42_row_refuted`, `C68_header`, `C68_parents`, `C68_values`, `C111_logic`, `C129_apart_partial`, `C129_own_network_partial`, `C130_update_partial`, `C130_others_partial`, `C130_in_turn_partial` |
