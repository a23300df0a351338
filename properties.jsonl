{"id": "C01", "title": "Index and Outcomes are inverse bijections", "statement": "For every factor, Factor.Index maps the in-range outcome tuples one-to-one onto 0..len(Data())-1, and Factor.Outcomes is its inverse in both directions.", "quantifier": "all lists of variables with any positive outcome counts, all in-range tuples, all flat indices below the product", "why_tests_cant": "the number of shapes and of tuples is unbounded; tests use two shapes of at most 24 cells", "anchors": ["ve/factor.go:factorVariables.Index", "ve/factor.go:factorVariables.Outcomes"]}
{"id": "C02", "title": "Data is laid out in row-major order, the last variable fastest", "statement": "Enumerating a factor with the internal odometer visits every outcome tuple exactly once in the order of Factor.Data: after k steps from the all-zero tuple the odometer holds Outcomes(k), and the step reports overflow exactly on the last tuple, where it wraps to all zeros.", "quantifier": "all shapes, all step counts k", "why_tests_cant": "an induction over the number of steps and of variables; a test sees finitely many carries", "anchors": ["ve/factor.go:factorVariables.increment", "ve/factor.go:factorVariables.Outcomes"]}
{"id": "C03", "title": "Set and Get address single cells", "statement": "After Factor.Set(t, x), Get(t) returns x and Get(u) is unchanged for every other in-range tuple u.", "quantifier": "all factors, all pairs of in-range tuples, all values (including NaN and infinities)", "why_tests_cant": "pairs of tuples over unbounded shapes", "anchors": ["ve/factor.go:Factor.Get", "ve/factor.go:Factor.Set"]}
{"id": "C04", "title": "IndexWithNoData reports missing data exactly", "statement": "Factor.IndexWithNoData returns false exactly if the tuple holds a -1, and otherwise returns the same index as Factor.Index.", "quantifier": "all shapes and all integer tuples of the right length", "why_tests_cant": "unbounded tuples; the early exit position depends on the place of the -1", "anchors": ["ve/factor.go:factorVariables.IndexWithNoData"]}
{"id": "C05", "title": "Row of a ve.Factor is the slice of the last variable", "statement": "For outcomes of all but the last variable, Factor.Row returns exactly the values Get(outcomes ++ [0]), ..., Get(outcomes ++ [n-1]), n being the last variable's outcome count.", "quantifier": "all factors with at least one variable, all in-range tuples", "why_tests_cant": "unbounded shapes", "anchors": ["ve/factor.go:Factor.Row", "ve/factor.go:Factor.RowIndex"]}
{"id": "C06", "title": "Product is the pointwise product", "statement": "Variables.Product of any number of factors yields a factor over exactly the union of their variables (in order of first appearance) whose value at each joint assignment is the product of the values of the given factors at that assignment.", "quantifier": "any number of factors, any overlap of their variables, any sizes, any values", "why_tests_cant": "all scopes and overlaps; test uses 2-3 binary factors", "anchors": ["ve/variables.go:Variables.Product"]}
{"id": "C07", "title": "Product does not depend on argument order or grouping", "statement": "Permuting the arguments of Product, or multiplying in stages, changes at most the order of the variables of the result: as a function of named assignments the result is the same.", "quantifier": "all lists of factors and all permutations / groupings of them (exact arithmetic)", "why_tests_cant": "quantifies over all permutations; Go's map iteration order picks the permutation at run time", "anchors": ["ve/variables.go:Variables.Product", "ve/ve.go:VE.removeHidden", "ve/ve.go:VE.multiplyAll"]}
{"id": "C08", "title": "Sum is the pointwise sum", "statement": "Variables.Sum of any number of factors yields a factor over the union of their variables whose value at each joint assignment is the sum of the values of the given factors at that assignment.", "quantifier": "any number of factors, any overlap, any sizes, any values", "why_tests_cant": "all scopes and overlaps", "anchors": ["ve/variables.go:Variables.Sum"]}
{"id": "C09", "title": "SumOut marginalises one variable", "statement": "Variables.SumOut(f, v) drops v from the variables, keeps the order of the others, and its value at an assignment is the sum of f over all outcomes of v.", "quantifier": "all factors, all positions of v, all assignments", "why_tests_cant": "unbounded shapes and positions", "anchors": ["ve/variables.go:Variables.SumOut"]}
{"id": "C10", "title": "The order of summing out does not matter", "statement": "Summing out a set of variables in any order gives the same factor.", "quantifier": "all factors, all pairs/lists of distinct variables in them, all orders (exact arithmetic)", "why_tests_cant": "all permutations of all variable sets", "anchors": ["ve/variables.go:Variables.SumOut"]}
{"id": "C11", "title": "Restrict fixes one variable", "statement": "Variables.Restrict(f, v, k) drops v, keeps the order of the others, and its value at an assignment is that of f with v = k; the values are copied unchanged.", "quantifier": "all factors, all positions of v, all observations k, any value type (holds for IEEE floats too)", "why_tests_cant": "unbounded shapes and positions", "anchors": ["ve/variables.go:Variables.Restrict"]}
{"id": "C12", "title": "Restrict commutes with the other operations", "statement": "Restricting to several observations in any order gives the same factor; restricting a product equals the product of the restricted factors; restricting commutes with summing out another variable.", "quantifier": "all factors, all pairs of distinct variables, all observations", "why_tests_cant": "laws over all inputs; evidence is applied in Go map order at run time", "anchors": ["ve/variables.go:Variables.Restrict", "ve/ve.go:VE.eliminateEvidence"]}
{"id": "C13", "title": "Rearrange only reorders", "statement": "Variables.Rearrange to any permutation of the factor's variables keeps the value at every named assignment bit for bit; rearranging back restores the original data exactly.", "quantifier": "all factors, all permutations of their variables, any value type", "why_tests_cant": "n! permutations of unbounded n", "anchors": ["ve/variables.go:Variables.Rearrange"]}
{"id": "C14", "title": "Marginal sums out everything else", "statement": "Variables.Marginal(f, v) is a one-variable factor whose value at outcome k is the sum of all entries of f with v = k; it equals summing out all other variables.", "quantifier": "all factors and variables in them", "why_tests_cant": "unbounded shapes", "anchors": ["ve/variables.go:Variables.Marginal"]}
{"id": "C15", "title": "Normalize rescales to total one", "statement": "If the entries of f do not sum to zero, Variables.Normalize(f) has the same variables, entries in the same proportions and total one, and is idempotent; it leaves f unchanged.", "quantifier": "all factors with non-zero total (exact arithmetic)", "why_tests_cant": "all data vectors", "anchors": ["ve/variables.go:Variables.Normalize"]}
{"id": "C16", "title": "NormalizeFor makes a conditional distribution", "statement": "Variables.NormalizeFor(f, v) moves v to the last place and divides each group of entries that share the outcomes of all other variables by the group's sum; groups with non-zero sum then add up to one, groups with sum zero are left as they are.", "quantifier": "all factors, positions of v, and group sums", "why_tests_cant": "unbounded shapes and all zero/non-zero patterns", "anchors": ["ve/variables.go:Variables.NormalizeFor"]}
{"id": "C17", "title": "Invert and NormalizeUtility divide pointwise", "statement": "Network.NormalizeUtility(u, p) has at each assignment with p != 0 the value u/p.", "quantifier": "all pairs of factors and assignments", "why_tests_cant": "all scopes", "anchors": ["ve/variables.go:Variables.Invert", "network.go:Network.NormalizeUtility"]}
{"id": "C18", "title": "Policy picks exactly the best outcomes", "statement": "Variables.Policy(f, d) puts d last, and for each assignment of the other variables gives probability 1/m to each of the m outcomes of d with the highest value and 0 to the others; so each row adds up to one.", "quantifier": "all factors, positions of d, all value patterns including any number of ties", "why_tests_cant": "all tie patterns and row counts; the code reuses one slice across rows", "anchors": ["ve/variables.go:Variables.Policy"]}
{"id": "C19", "title": "Factor IDs are unique per Variables instance", "statement": "All factors ever created through one Variables instance have distinct Id().", "quantifier": "all histories of factor-creating operations", "why_tests_cant": "any operation sequence of any length", "anchors": ["ve/variables.go:Variables.CreateFactor", "ve/factor.go:Factor.Id"]}
{"id": "C20", "title": "Operations reject malformed calls with a panic and nothing else", "statement": "Index/Get/Set panic for a wrong number of indices; CreateFactor panics for a wrong data length; Restrict panics for an observation outside 0..n-1; Restrict, SumOut, Policy, Marginal, NormalizeFor panic for a variable not in the factor; on well-formed arguments none of them panics.", "quantifier": "all factors and arguments", "why_tests_cant": "needs absence of panics for all inputs, and presence for all malformed ones", "anchors": ["ve/variables.go", "ve/factor.go"]}
{"id": "C21", "title": "AddVariable rejects a reused ID", "statement": "Adding a second variable with an ID that the Variables instance already holds panics, so IDs identify variables.", "quantifier": "all histories of AddVariable calls", "why_tests_cant": "any history", "anchors": ["ve/variables.go:Variables.AddVariable"]}
{"id": "C22", "title": "Get rejects out-of-range outcomes", "statement": "Factor.Get with an outcome index outside the range of its variable panics instead of returning another cell's value.", "quantifier": "all factors, all integer tuples", "why_tests_cant": "all out-of-range tuples", "anchors": ["ve/factor.go:Factor.Get", "ve/factor.go:factorVariables.Index"]}
{"id": "C23", "title": "VE.SolveQuery computes the exact joint marginal", "statement": "VE.SolveQuery(evidence, query) returns a factor whose value at each assignment of its variables is the sum, over all outcomes of all hidden chance variables, of the product of all non-utility factors with the evidence plugged in.", "quantifier": "all sets of factors, all evidence, all queries, every iteration order of every Go map traversed on the way (exact arithmetic)", "why_tests_cant": "all networks and all schedules of map iteration", "anchors": ["ve/ve.go:VE.SolveQuery", "ve/ve.go:VE.eliminateHidden", "ve/ve.go:VE.removeHidden", "ve/ve.go:VE.restrictEvidence", "ve/ve.go:VE.multiplyAll"]}
{"id": "C24", "title": "Answers do not depend on Go map iteration order", "statement": "Solving the same query twice gives the same values for every named assignment no matter in which order the maps are iterated, and hidden variables are eliminated in the same order (by degree, then ID) each time.", "quantifier": "all pairs of iteration schedules", "why_tests_cant": "Go randomises map iteration; a test samples a few orders", "anchors": ["ve/ve.go:VE.eliminateHidden", "ve/ve.go:VE.removeHidden"]}
{"id": "C25", "title": "VE.SolveUtility computes the exact expected weighted utility", "statement": "VE.SolveUtility(evidence, query, nil) returns at each assignment the sum over the hidden variables of the product of the probability factors times the weighted sum of the utility factors, with the evidence plugged in.", "quantifier": "all factor sets, weights, evidence, queries, schedules (exact arithmetic)", "why_tests_cant": "all networks and schedules", "anchors": ["ve/ve.go:VE.SolveUtility", "ve/ve.go:VE.sumUtilities"]}
{"id": "C26", "title": "VE.SolveUtility for one utility variable uses only that one", "statement": "VE.SolveUtility(evidence, query, &u) returns at each assignment the sum over the hidden variables of the product of the probability factors times u's utility factor; other utility factors have no influence.", "quantifier": "all factor sets, evidence, queries, schedules", "why_tests_cant": "all networks and schedules", "anchors": ["ve/ve.go:VE.SolveUtility", "ve/ve.go:VE.removeUtilities"]}
{"id": "C27", "title": "Total utility is the weighted sum of the single utilities", "statement": "The result of solving total utility equals, at every assignment, the weighted sum of the results for the individual utility variables.", "quantifier": "all networks with utilities, all weights, evidence, queries, schedules (exact arithmetic)", "why_tests_cant": "linearity over all inputs", "anchors": ["ve/ve.go:VE.sumUtilities", "ve/ve.go:VE.removeUtilities", "internal/tui/solve.go:solveUtility"]}
{"id": "C28", "title": "Decisions are ordered topologically", "statement": "The order in which decisions are solved contains each decision exactly once and places every decision after the decisions it depends on.", "quantifier": "all acyclic dependency graphs among decisions, of any size and listing order", "why_tests_cant": "all graphs", "anchors": ["ve/ve.go:sortTopological", "ve/ve.go:VE.getDecisions"]}
{"id": "C29", "title": "A solved policy is a best response at every information state", "statement": "Solving the last decision gives a policy that, for each assignment of the other remaining variables, puts probability only on outcomes that maximise the expected weighted utility of that assignment.", "quantifier": "all networks with non-negative probability factors, all utilities, all schedules", "why_tests_cant": "all networks", "anchors": ["ve/ve.go:VE.SolvePolicies", "ve/ve.go:VE.solvePolicies", "ve/ve.go:VE.findDecisionFactors"]}
{"id": "C30", "title": "For a single decision no other policy has higher expected utility", "statement": "In a network with one decision, the expected total utility under the solved policy is at least that under any other (also randomised) policy that depends on the decision's parents.", "quantifier": "all single-decision networks, all competing policies", "why_tests_cant": "quantifies over an uncountable set of competing policies", "anchors": ["ve/ve.go:VE.SolvePolicies", "network.go:Network.SolvePolicies"]}
{"id": "C31", "title": "Network.SolveQuery returns the exact posterior", "statement": "For a Bayesian network, Network.SolveQuery returns for each query variable q and outcome k the value P(q=k | evidence) of the joint distribution defined by the row-normalised tables, computed as if by full enumeration.", "quantifier": "all networks of any size and structure, all evidence with non-zero probability, all queries not in the evidence, all map orders (exact arithmetic)", "why_tests_cant": "all networks; tests check a handful of literals", "anchors": ["network.go:Network.SolveQuery", "network.go:Network.toVE", "ve/ve.go"]}
{"id": "C32", "title": "Impossible evidence yields NaN for every query outcome", "statement": "If the evidence has probability zero, Network.SolveQuery returns NaN for each outcome of each query variable, and no error.", "quantifier": "all networks and evidence of probability zero", "why_tests_cant": "all networks", "anchors": ["network.go:Network.SolveQuery", "ve/variables.go:Variables.Normalize"]}
{"id": "C33", "title": "Query answers are probability distributions", "statement": "With non-negative tables and possible evidence, each result of Network.SolveQuery has one entry per outcome, all entries between 0 and 1, adding up to 1.", "quantifier": "all networks, evidence, queries", "why_tests_cant": "all inputs", "anchors": ["network.go:Network.SolveQuery"]}
{"id": "C34", "title": "Scaling a table row has no effect", "statement": "Multiplying a row of non-negative entries in a chance variable's table by any non-zero constant changes no query result: percentages, counts and probabilities are equivalent.", "quantifier": "all networks, rows, non-zero factors", "why_tests_cant": "all networks and factors", "anchors": ["network.go:Network.toVE", "ve/variables.go:Variables.NormalizeFor"]}
{"id": "C35", "title": "New accepts exactly the valid structures", "statement": "New fails exactly if two variables share a name, a parent is unknown, a utility node has no parents or mixes utility and other parents, there is more than one total-utility node, or the total-utility node's outcome and parent counts differ.", "quantifier": "all lists of variables and factors", "why_tests_cant": "all structures", "anchors": ["network.go:New", "network.go:Network.prepareVariables", "network.go:Network.prepareUtilityNodes"]}
{"id": "C36", "title": "Unknown names and outcomes are reported as errors, not panics", "statement": "SolveQuery and SolveUtility return an error if an evidence variable, an evidence outcome, a query variable or the utility variable is unknown.", "quantifier": "all networks, evidence maps, queries", "why_tests_cant": "all inputs", "anchors": ["network.go:Network.solve"]}
{"id": "C37", "title": "SolveQuery handles query variables that are in the evidence", "statement": "If a query variable is also in the evidence, SolveQuery returns a result (the observed outcome with probability one) rather than panicking.", "quantifier": "all networks and evidence/query overlaps", "why_tests_cant": "all inputs", "anchors": ["network.go:Network.SolveQuery", "ve/variables.go:Variables.Marginal"]}
{"id": "C38", "title": "Queries do not change the network", "statement": "No sequence of SolveQuery, SolveUtility, Marginal, Normalize, NormalizeUtility, Rearrange and ToEvidence calls changes the result of a later SolveQuery or SolveUtility.", "quantifier": "all histories of read calls of any length", "why_tests_cant": "any history", "anchors": ["network.go:Network.SolveQuery", "network.go:Network.SolveUtility"]}
{"id": "C39", "title": "SolvePolicies is repeatable", "statement": "Calling SolvePolicies again gives the same policies as the first call whatever was solved in between.", "quantifier": "all histories", "why_tests_cant": "any history", "anchors": ["network.go:Network.SolvePolicies"]}
{"id": "C40", "title": "ignorePolicies turns evidence on a decision into an intervention", "statement": "With ignorePolicies, evidence for a solved decision removes that decision's policy from the joint distribution; without it, the evidence conditions on the decision being taken by the policy.", "quantifier": "all networks with solved policies, all evidence", "why_tests_cant": "all networks and evidence sets", "anchors": ["network.go:Network.solve", "network.go:Network.policyFactors"]}
{"id": "C41", "title": "ToEvidence is one-hot", "statement": "ToEvidence(v, o) returns 1 at o's index and 0 elsewhere with one entry per outcome, and an error for an unknown variable or outcome, on any network.", "quantifier": "all networks, variables and outcomes, and all call histories before it", "why_tests_cant": "all inputs and histories", "anchors": ["network.go:Network.ToEvidence"]}
{"id": "C42", "title": "Row of a network factor returns the table row", "statement": "bbn.Factor.Row(indices) returns the row of the table for the given parent outcomes: entries row*columns .. row*columns+columns-1, and false if data is missing.", "quantifier": "all factors and parent outcome tuples", "why_tests_cant": "all shapes", "anchors": ["network.go:Factor.Row", "network.go:Factor.rowIndex"]}
{"id": "C43", "title": "Utility weights are matched by name", "statement": "With a total-utility node, each utility is weighted with the entry of the total node's table at the position of that utility in the node's parents, whatever the order in which the utility variables are listed.", "quantifier": "all networks and orders", "why_tests_cant": "all orders", "anchors": ["network.go:Network.prepareUtilityWeights", "ve/ve.go:VE.sumUtilities"]}
{"id": "C44", "title": "Network.Rearrange puts the named variables where asked", "statement": "Rearrange(f, names) yields the same function with the named variables in the given order, the last one last and the unnamed ones before it.", "quantifier": "all factors and name lists", "why_tests_cant": "all permutations", "anchors": ["network.go:Network.Rearrange", "network.go:Network.rearrangeVariables"]}
{"id": "C45", "title": "Outcome counts are preserved when solving", "statement": "The factors solved have for each variable as many outcomes as the variable was declared with.", "quantifier": "all numbers of outcomes", "why_tests_cant": "boundary far beyond what tests use (65536)", "anchors": ["network.go:Network.toVE", "ve/variables.go:Variables.AddVariable"]}
{"id": "C46", "title": "SolvePolicies returns well-formed policy tables", "statement": "Each returned policy is for a decision variable, has its decision as last variable, a table of matching size, and each row is a probability distribution.", "quantifier": "all networks with decisions", "why_tests_cant": "all networks", "anchors": ["network.go:Network.SolvePolicies"]}
{"id": "C47", "title": "Two-operand and one-operand logic operators match their formulas", "statement": "The table of each named boolean operator gives True exactly for the parent outcomes for which its documented formula holds, and Table fails exactly if the number of parents is wrong.", "quantifier": "all operators and all parent counts", "why_tests_cant": "all parent counts", "anchors": ["logic/simple.go", "logic/factor.go"]}
{"id": "C48", "title": "Counting operators count the parents that are True", "statement": "count-is/less/greater N is True exactly if the number of True parents is equal to / less than / greater than N; count-true and count-false give that number as outcome.", "quantifier": "all parent counts and values N", "why_tests_cant": "2^n rows for unbounded n", "anchors": ["logic/count.go"]}
{"id": "C49", "title": "bits reads the parents as a binary number", "statement": "The outcome of bits is the number whose binary digits are the parents (True = 1), the first parent the most significant.", "quantifier": "all parent counts", "why_tests_cant": "2^n rows", "anchors": ["logic/bits.go"]}
{"id": "C50", "title": "given operators test the parent at the given index", "statement": "given i is True exactly if parent number i (counted as listed) is True; given-not i exactly if it is False; given-excl i exactly if it is the only True parent.", "quantifier": "all parent counts, indices and rows", "why_tests_cant": "2^n rows; the test uses the symmetric middle index of three", "anchors": ["logic/given.go"]}
{"id": "C51", "title": "outcome operators compare the parent's outcome index", "statement": "outcome-is / -is-not / -either / -less / -greater are True exactly if the parent's outcome index is equal to / different from / one of / less than / greater than the argument.", "quantifier": "all outcome counts and arguments in range", "why_tests_cant": "all sizes", "anchors": ["logic/outcome.go"]}
{"id": "C52", "title": "Every logic table is a complete conditional distribution", "statement": "Each table produced by a logic operator has (number of rows) x (number of outcomes) entries, all 0, 1/2 or 1, and each row adds up to one.", "quantifier": "all operators, parent counts, valid arguments", "why_tests_cant": "all sizes", "anchors": ["logic"]}
{"id": "C53", "title": "A logic node's table depends only on its own definition", "statement": "The table built for a logic node depends only on its operator, arguments and parent count, not on which other nodes or networks were loaded before.", "quantifier": "all histories of loads", "why_tests_cant": "operators are shared mutable globals: any history", "anchors": ["yml.go:toTable", "logic/factor.go:Get"]}
{"id": "C54", "title": "Logic factors obtained separately are independent", "statement": "Two factors obtained by separate calls of logic.Get keep their own arguments.", "quantifier": "all histories of Get/SetArgs/Table", "why_tests_cant": "any history", "anchors": ["logic/factor.go:Get"]}
{"id": "C55", "title": "Saving and loading a network preserves its meaning", "statement": "FromYAML(ToYAML(n)) has the same name, variables, types, outcomes, positions, parents and tables as n.", "quantifier": "all networks built by New with complete tables", "why_tests_cant": "all networks", "anchors": ["yml.go:ToYAML", "yml.go:FromYAML"]}
{"id": "C56", "title": "Saving and loading preserves the description and colours", "statement": "FromYAML(ToYAML(n)) also has n's info text and node colours.", "quantifier": "all networks", "why_tests_cant": "all networks", "anchors": ["yml.go:ToYAML"]}
{"id": "C57", "title": "YAML node definitions are flattened faithfully", "statement": "A node's table is the concatenation of its rows; a node with both a table and a logic operator, an unknown type, an unknown operator or bad arguments is rejected with an error.", "quantifier": "all YAML node definitions", "why_tests_cant": "all inputs", "anchors": ["yml.go:FromYAML", "yml.go:toTable"]}
{"id": "C58", "title": "BIF-XML definitions are matched by name", "statement": "Loading BIF-XML gives each variable the parents and table of the definition for its name regardless of the order of definitions, and reports malformed files as errors.", "quantifier": "all files and definition orders", "why_tests_cant": "all orders", "anchors": ["xml.go:FromBIFXML"]}
{"id": "C59", "title": "Positions are parsed from `position = (x, y)`", "statement": "A position property in the documented format is read as its two integers (scaled to terminal cells); properties that are not of the form `key = value` with the key `position` are ignored; a position whose value is not two integers is an error.", "quantifier": "all integers and property lists", "why_tests_cant": "all inputs", "anchors": ["xml.go:parsePosition"]}
{"id": "C60", "title": "Training yields relative frequencies", "statement": "After training, each chance-table entry is the number of samples with that parent configuration and outcome divided by the number of samples with that parent configuration and a known outcome.", "quantifier": "all networks and all sample histories", "why_tests_cant": "all histories", "anchors": ["training.go:Trainer.AddSample", "training.go:Trainer.UpdateNetwork"]}
{"id": "C61", "title": "Trained utilities are sample means", "statement": "After training, each utility-table entry is the mean of the utility values of the samples with that parent configuration.", "quantifier": "all networks and sample histories", "why_tests_cant": "all histories", "anchors": ["training.go:Trainer.AddSample", "training.go:Trainer.UpdateNetwork"]}
{"id": "C62", "title": "Training does not depend on sample order", "statement": "Any permutation of the training samples gives the same trained network.", "quantifier": "all sample lists and permutations (exact arithmetic)", "why_tests_cant": "all permutations", "anchors": ["training.go:Trainer.AddSample"]}
{"id": "C63", "title": "Missing values only affect their own nodes", "statement": "A sample with a missing value contributes to no row of the node with the missing value or of that node's children, and to all other nodes as usual.", "quantifier": "all samples and patterns of missing values", "why_tests_cant": "all patterns", "anchors": ["training.go:Trainer.AddSample", "network.go:Factor.rowIndex"]}
{"id": "C64", "title": "UpdateNetwork fails exactly if a table row has no sample", "statement": "UpdateNetwork returns an error exactly if some row of some table has no sample, and on error leaves the network's tables as they were.", "quantifier": "all networks and histories", "why_tests_cant": "all histories", "anchors": ["training.go:Trainer.UpdateNetwork"]}
{"id": "C65", "title": "Training from CSV skips missing values", "statement": "When training from a CSV file, a cell equal to the no-data value counts as missing, for chance and for utility columns; unknown outcomes and missing columns are errors; extra columns and column order are irrelevant.", "quantifier": "all files", "why_tests_cant": "all files", "anchors": ["internal/tui/training.go:TrainNetwork", "internal/tui/training.go:prepare"]}
{"id": "C66", "title": "Evidence arguments are parsed strictly", "statement": "ParseEvidence accepts exactly the lists whose entries contain exactly one '=', and maps each key to the value of its last entry.", "quantifier": "all argument lists", "why_tests_cant": "all strings", "anchors": ["internal/tui/util.go:ParseEvidence"]}
{"id": "C67", "title": "Bounds.Extend is the smallest enclosing rectangle", "statement": "After b.Extend(o), b contains exactly the smallest rectangle that contains both; the canvas built by extending over all nodes contains each node, and nothing smaller does.", "quantifier": "all rectangles and lists of them", "why_tests_cant": "all integers", "anchors": ["internal/tui/bounds.go", "internal/tui/app.go:createCanvas"]}
{"id": "C68", "title": "The table view labels rows with the right parent outcomes", "statement": "Row r of the table view shows for each parent the outcome that belongs to row r of the factor's table.", "quantifier": "all parent lists, outcome counts, rows", "why_tests_cant": "unbounded shapes", "anchors": ["internal/tui/table.go:GetCell"]}
{"id": "C69", "title": "The interactive selection always points to an existing outcome", "statement": "After any sequence of key presses and mouse clicks, the selected node and outcome exist, so pressing Enter never crashes.", "quantifier": "all input histories", "why_tests_cant": "any history of inputs", "anchors": ["internal/tui/input.go"]}
{"id": "C70", "title": "Nodes stay on the canvas", "statement": "After any sequence of node moves, each node lies within the canvas, so rendering nodes and edges never writes outside it.", "quantifier": "all layouts and move histories", "why_tests_cant": "any history", "anchors": ["internal/tui/input.go:moveNode", "internal/tui/app.go:createCanvas", "internal/tui/render.go"]}
{"id": "C71", "title": "Toggling evidence twice restores it", "statement": "Selecting the same outcome of a node twice leaves the evidence as it was before if the node had none, selecting another outcome replaces it; utility nodes never get evidence.", "quantifier": "all evidence maps and input histories", "why_tests_cant": "any history", "anchors": ["internal/tui/input.go:inputEnter"]}
{"id": "C72", "title": "Displayed utilities are conditional expectations", "statement": "The utilities shown for evidence e are the expected utilities given e, the entries of the total-utility node are the weighted single utilities, and they add up to the total.", "quantifier": "all networks, evidence (exact arithmetic)", "why_tests_cant": "all networks", "anchors": ["internal/tui/solve.go"]}
{"id": "C73", "title": "The no-data option of bbni is honoured", "statement": "The value passed as no-data value to the interactive app is the one used for training.", "quantifier": "all values", "why_tests_cant": "all values", "anchors": ["internal/tui/app.go:New", "cmd/bbni/main.go"]}
{"id": "C74", "title": "Decisions solved together are jointly optimal", "statement": "If all decisions are solved in one go, no combination of other policies (also randomised ones), each using only what its decision and the earlier decisions know, has a higher expected total utility than the solved policies.", "quantifier": "all networks with any number of decisions, all utilities and weights, all schedules, all combinations of competing policies; every decision is linked to a utility", "why_tests_cant": "quantifies over an uncountable set of combinations of policies", "anchors": ["ve/ve.go:VE.SolvePolicies", "ve/ve.go:VE.solvePolicies", "ve/ve.go:sortTopological"]}
{"id": "C75", "title": "Network.SolveUtility is the weighted utility sum by enumeration", "statement": "Network.SolveUtility returns, for each outcome of the variables left, the sum over all outcomes of the hidden variables of the probability (row-normalised tables times policies, evidence plugged in) times the utility asked for (one utility variable, or the weighted total); if nothing is left it is the expected utility over all worlds that agree with the evidence.", "quantifier": "all networks, evidence, queries, utilities, map orders", "why_tests_cant": "all networks and enumeration over all worlds", "anchors": ["network.go:Network.SolveUtility", "network.go:Network.solve", "network.go:Network.toVE", "ve/ve.go:VE.SolveUtility"]}
{"id": "C76", "title": "NewTrainer works for every network New accepts", "statement": "NewTrainer returns a trainer for every network that New accepted, and feeding it samples that fit the network never panics.", "quantifier": "all networks, all sample sequences", "why_tests_cant": "all networks and all sequences of samples", "anchors": ["training.go:NewTrainer", "training.go:Trainer.AddSample", "network.go:New"]}
{"id": "C77", "title": "Training leaves the weights of total utility alone", "statement": "Training replaces probabilities and utilities by what the samples say; the weights of the total-utility node, which are no observations, stay as they were.", "quantifier": "all networks with a total-utility node, all sample sequences", "why_tests_cant": "all networks and all sequences of samples", "anchors": ["training.go:Trainer.UpdateNetwork", "network.go:Network.prepareUtilityWeights"]}
{"id": "C78", "title": "Displayed probabilities are posteriors", "statement": "At any time of a session with the interactive app, if the evidence chosen has positive probability, the numbers shown for each chance and decision variable are the posterior probabilities of its outcomes given the evidence chosen so far, under the solved policies or, if policies are switched off, without policies.", "quantifier": "all networks, start evidence, input histories, map orders (exact arithmetic)", "why_tests_cant": "any history of inputs, and enumeration over all worlds", "anchors": ["internal/tui/solve.go", "internal/tui/app.go:Run", "internal/tui/input.go"]}
{"id": "C79", "title": "Sessions without impossible choices never crash", "statement": "The interactive app starts for every well-formed network with known colours and non-negative positions, and in any session in which outcomes chosen exist and the evidence keeps a positive probability, no key press and no mouse click crashes it.", "quantifier": "all networks, start evidence, input histories, map orders (exact arithmetic)", "why_tests_cant": "any history of inputs on any network", "anchors": ["internal/tui/app.go:Run", "internal/tui/input.go", "internal/tui/render.go", "internal/tui/node.go"]}
{"id": "C80", "title": "A policy depends only on the decision's parents", "statement": "Each policy returned by SolvePolicies for a decision depends only on variables that are declared as parents of this decision: what a decision maker does not see cannot change what the policy advises.", "quantifier": "all networks, both modes, all map orders (exact arithmetic)", "why_tests_cant": "any network, table contents and iteration order of maps", "anchors": ["network.go:SolvePolicies", "ve/ve.go:SolvePolicies", "ve/ve.go:eliminateHidden"]}
{"id": "C81", "title": "Policies solved together are optimal", "statement": "If SolvePolicies solves all decisions together (or there is only one), each decision can matter for a utility by what the decisions do not see, and probabilities are not negative, then no other way of taking the decisions in the declared order, using only what is known by then, randomised or not, has a higher expected total utility. SolveUtility afterwards reports exactly this highest expected utility.", "quantifier": "all networks, all strategies, all map orders (exact arithmetic)", "why_tests_cant": "a maximum over infinitely many randomised strategies on any network", "anchors": ["network.go:SolvePolicies", "network.go:SolveUtility", "ve/ve.go:SolvePolicies", "ve/variables.go:Policy"]}
{"id": "C82", "title": "The last decision's policy is a best response in every situation", "statement": "Under the same conditions the policy of the decision taken last puts probability only on outcomes with the highest expected utility, for every combination of outcomes of the known variables, also for combinations that never occur.", "quantifier": "all networks, all situations, all map orders (exact arithmetic)", "why_tests_cant": "any network and situation", "anchors": ["network.go:SolvePolicies", "ve/ve.go:SolvePolicies", "ve/variables.go:Policy"]}
{"id": "C83", "title": "Policies solved step by step are best responses", "statement": "If SolvePolicies solves the decisions one after another, there is an order of the decisions that respects their declared order such that each policy uses only what is known by then (earlier decisions and declared parents), and puts probability only on outcomes with the highest expected utility for what the decision knows, if the later decisions follow their policies. This holds in every situation, also in ones that never occur, for each decision that can matter for a utility.", "quantifier": "all networks, all situations, all map orders (exact arithmetic)", "why_tests_cant": "any number of decisions, each solved after the later ones", "anchors": ["network.go:SolvePolicies", "network.go:toVE", "ve/ve.go:SolvePolicies"]}
{"id": "C84", "title": "SolveUtility reports what the policies achieve", "statement": "After SolvePolicies, in both modes, SolveUtility without evidence reports exactly the expected total utility of taking every decision as the returned tables say.", "quantifier": "all networks, both modes, all map orders (exact arithmetic)", "why_tests_cant": "any network and iteration order of maps", "anchors": ["network.go:SolvePolicies", "network.go:SolveUtility", "network.go:toVE"]}
{"id": "C85", "title": "Solving step by step is as good as solving together", "statement": "After solving the policies one after another, SolveUtility reports the same expected utility as after solving them together.", "quantifier": "all networks, all map orders (exact arithmetic)", "why_tests_cant": "any network", "anchors": ["network.go:SolvePolicies", "ve/ve.go:SolvePolicies"]}
{"id": "C86", "title": "A variable with known parents follows its table", "statement": "In a network without cycles, without all-zero table rows and without stored policies: if all parents of a chance variable are observed, but neither the variable itself nor any of its descendants, SolveQuery returns for it the row of its table that belongs to the observed outcomes, scaled to sum one, whatever else is observed. The weights of all worlds sum to one (for each way to take the decisions). New accepts networks with cycles, where this fails.", "quantifier": "all networks without cycles and zero rows, all chance variables, all such evidence, all map orders (exact arithmetic)", "why_tests_cant": "any graph, any table and any evidence", "anchors": ["network.go:SolveQuery", "ve/ve.go:SolveQuery"]}
{"id": "C87", "title": "What is not above the question has no influence", "statement": "Variables that are neither asked for, nor observed, nor ancestors of such variables have no influence on the answers of SolveQuery: two networks that agree on what is asked for, observed and above give the same answers, whatever other variables and tables they have and in whatever order things are listed.", "quantifier": "all pairs of networks without cycles, zero rows and stored policies, all queries for chance variables, all evidence, all map orders (exact arithmetic)", "why_tests_cant": "quantifies over pairs of networks", "anchors": ["network.go:SolveQuery", "ve/ve.go:SolveQuery"]}
{"id": "C88", "title": "Answers of different queries fit together", "statement": "The answers of separate SolveQuery calls obey the rules of probability: Bayes' rule (P(a|e) P(b|a,e) = P(b|e) P(a|b,e)), the law of total probability, and asking for several variables in one call gives the same as asking for each separately.", "quantifier": "all networks (with or without stored policies), all evidence, all pairs of chance variables and outcomes, all map orders (exact arithmetic)", "why_tests_cant": "relates several calls on any network", "anchors": ["network.go:SolveQuery"]}
{"id": "C89", "title": "The order in which things are passed to New does not matter", "statement": "Well-formed variables and tables (unique names, known parents, tables of the right size) are accepted by New in whatever order they are listed, and the networks made from two listings answer every SolveQuery and every SolveUtility call with the same numbers, under any map order.", "quantifier": "all lists of well-formed variables and tables, all reorderings, all queries, all evidence, all map orders (exact arithmetic)", "why_tests_cant": "any number of variables and any reordering", "anchors": ["network.go:New", "network.go:SolveQuery", "network.go:SolveUtility"]}
{"id": "C90", "title": "A node's box shows exactly its present numbers", "statement": "Whatever was drawn before, Node.Render shows the frame (double if the node is selected), the title, and for each outcome its name, a bar with as many full cells as the integer part of ten times the number, its percentage (or its utility), and the marks of selection and evidence; nothing is left of earlier drawings. This holds for all probabilities, NaN, and all utilities of less than ten million.", "quantifier": "all variables, all sequences of Render calls with any numbers, selections and evidence flags", "why_tests_cant": "any variable and any history of drawings", "anchors": ["internal/tui/node.go:NewNode", "internal/tui/node.go:Render", "internal/tui/node.go:drawBars", "internal/tui/node.go:drawUtility"]}
{"id": "C91", "title": "The canvas shows the present state", "statement": "At any time of a session the canvas of the app shows at each place the node box that is there (with the present numbers, selection and evidence), otherwise the edge between a node and its parent, otherwise a blank. In particular nothing is left of boxes and edges at places they were moved away from.", "quantifier": "all networks the app can be started with, all sessions of inputs with possible evidence, all map orders (exact arithmetic)", "why_tests_cant": "any network and any sequence of inputs", "anchors": ["internal/tui/render.go:render", "internal/tui/render.go:renderNodes", "internal/tui/render.go:renderEdges", "internal/tui/render.go:clearCanvas", "internal/tui/input.go:inputMainPanel"]}
{"id": "C92", "title": "Edges are arrows from parent to child", "statement": "For every node and every parent of it the canvas shows an arrow: an unbroken line that begins at the parent's box and ends with an arrow head that points to the child's box.", "quantifier": "all pairs of box positions and sizes", "why_tests_cant": "any positions and sizes of boxes", "anchors": ["internal/tui/render.go:renderEdge", "internal/tui/render.go:renderEdgeVertical", "internal/tui/render.go:renderEdgeHorizontal", "internal/tui/render.go:renderEdgeCorner"]}
{"id": "C93", "title": "Rounding errors of a query are bounded", "statement": "With floating-point arithmetic (every operation exact up to a relative error u, nothing overflowing or becoming denormal), Network.SolveQuery returns, for evidence that is possible and tables without negative entries, probabilities whose relative error is at most E*u/(1-E*u), where E is a number that depends only on the number of variables, their outcomes and the entries of the result table, and not on the numbers in the tables. A returned probability is exactly 0 if and only if the exact one is 0.", "quantifier": "all valid networks, policies, evidence, queries, iteration orders and all arithmetics with relative error at most u", "why_tests_cant": "tests compare a few results with a tolerance; they cannot show that the error stays small for every network, elimination order and table", "anchors": ["network.go: Network.SolveQuery, toVE, solve", "ve/ve.go: solve, eliminateHidden", "ve/variables.go: Product, SumOut, Marginal, Normalize, NormalizeFor"]}
{"id": "C94", "title": "Saving in the app keeps the network", "statement": "Ctrl+S in bbni writes a file next to the loaded one, whose extension is replaced by -save.yml, and no other file; nothing is written without Ctrl+S, and the loaded file is never overwritten. The saved file can be loaded, and gives the name, the variables with types and outcomes, the parents, the tables and the total-utility node of the network that was loaded (or, with a training file, trained), with every node where its box was when it was saved, whatever the user did before and after. (The description and the colours are lost, see C56.)", "quantifier": "all files whose variables have outcomes and tables of full rows, all command line arguments, all sessions of inputs, all file systems, all map orders", "why_tests_cant": "any network, and any sequence of inputs before and after saving", "anchors": ["internal/tui/input.go:saveNetwork", "internal/tui/input.go:moveNode", "yml.go:ToYAML", "network.go:FromFile", "cmd/bbni/main.go"]}
{"id": "C95", "title": "bbn inference prints exact posteriors", "statement": "bbn inference prints for each variable of the file, in order, a line with its outcomes and a line with its name, its posterior probabilities given the evidence in percent (for utility variables the expected utility and the expected total, for the total-utility node the weighted parts and the total) with three decimals, and a plus sign exactly for evidence variables. Decisions are taken by the solved policies. A missing file, an unsupported extension, malformed evidence, and unknown variables or outcomes in the evidence are reported as errors.", "quantifier": "all network files of valid networks, all possible evidence, all map orders (exact arithmetic)", "why_tests_cant": "any network and any evidence; whole printed text", "anchors": ["cmd/bbn/inference.go", "internal/tui/solve.go:Solve", "internal/tui/util.go:ParseEvidence", "network.go:FromFile"]}
{"id": "C96", "title": "bbn train prints relative frequencies", "statement": "bbn train prints a network file that can be loaded again, with the variables and parents of the given network. The entry of each chance variable, for outcomes of its parents and itself, is the number of CSV records with these outcomes in the columns of these names, divided by the number of records with these outcomes of the parents and any outcome of the variable. A delimiter that is not one character is an error.", "quantifier": "all network files with tables of the right size, all CSV files, all no-data values for which training succeeds (exact arithmetic)", "why_tests_cant": "any network and any number of records", "anchors": ["cmd/bbn/train.go", "internal/tui/training.go:TrainNetwork", "training.go:Trainer", "yml.go:ToYAML", "network.go:FromFile"]}
{"id": "C97", "title": "Solved decisions behave like chance variables", "statement": "After SolvePolicies a network answers every query and every utility request exactly like the network in which each decision is declared as a chance variable whose table is the policy that was returned for it, with the tables listed in any order; also if decisions are observed or asked for. If every row of the chance tables has a sum other than zero and the tables and the policies follow some order, the probabilities of all worlds add up to one.", "quantifier": "all well-formed networks with solvable policies, stepwise or not, all evidence and queries, all listings of the policies, all map orders (exact arithmetic)", "why_tests_cant": "any network, any evidence; compares two different networks", "anchors": ["network.go:SolvePolicies", "network.go:SolveQuery", "network.go:SolveUtility", "network.go:New"]}
{"id": "C98", "title": "Separated observations do not change an answer", "statement": "In a network without cycles and without all-zero rows, if no news about a variable can reach some other variables past what is already observed (the graphical criterion of d-separation: along unobserved variables, and against the direction of the edges only at variables that are observed or have an observed descendant), then observing those other variables too does not change the answer for the variable.", "quantifier": "all valid acyclic networks, all evidence, all additional evidence separated from the queried variable, all map orders (exact arithmetic)", "why_tests_cant": "any graph, any tables, any evidence", "anchors": ["network.go:SolveQuery", "ve/ve.go:SolveQuery"]}
{"id": "C99", "title": "With all earlier information declared, stepwise solving is optimal", "statement": "If of each two decisions one has the other and all its parents as parents (nothing is forgotten), the policies found by solving the decisions one after another are jointly optimal: no strategies, also randomised ones, have a higher expected total utility. SolveUtility then reports the same number after solving step by step and after solving together.", "quantifier": "all well-formed decision networks with non-negative chance tables in which decisions remember and can matter, all competing strategies, all map orders (exact arithmetic)", "why_tests_cant": "ranges over all networks and all strategies", "anchors": ["network.go:SolvePolicies", "ve/ve.go:SolvePolicies", "network.go:SolveUtility"]}
{"id": "C100", "title": "More information never hurts", "statement": "If decisions get more parents and nothing else changes, the expected utility reported by SolveUtility after solving all decisions together does not get smaller.", "quantifier": "all pairs of well-formed decision networks that differ only in additional parents of decisions, if the order of decisions declared in the first leaves no choice, all map orders (exact arithmetic)", "why_tests_cant": "compares two networks; ranges over all of them", "anchors": ["network.go:SolvePolicies", "ve/ve.go:SolvePolicies", "network.go:SolveUtility"]}
{"id": "C101", "title": "Utilities can be given in any unit", "statement": "If all utility tables are multiplied by a positive number, the expected utility reported by SolveUtility after solving all decisions together is multiplied by the same number.", "quantifier": "all well-formed decision networks in which the declared order of decisions leaves no choice, all positive factors, all map orders (exact arithmetic)", "why_tests_cant": "compares two networks; ranges over all of them and all factors", "anchors": ["network.go:SolvePolicies", "ve/ve.go:SolvePolicies", "network.go:SolveUtility"]}
{"id": "C102", "title": "The screen of bbni shows the picture of the network", "statement": "At any time of a session of bbni, the graph view shows exactly the characters of the picture of the network, line by line: the boxes, the edges and blanks.", "quantifier": "all networks with which the app starts, all sequences of key presses and mouse clicks", "why_tests_cant": "ranges over all networks, names and event sequences", "anchors": ["internal/tui/render.go:updateCanvas", "internal/tui/render.go:render", "internal/tui/color.go:ColorTags"]}
{"id": "C103", "title": "Boxes are shown in their colours", "statement": "At any time of a session of bbni, every place of the graph view is shown in the colour of the variable whose box is there (the colour named in the file, or the default of its type), and in white if there is no box.", "quantifier": "all networks with which the app starts, all sequences of key presses and mouse clicks", "why_tests_cant": "ranges over all networks, layouts and event sequences", "anchors": ["internal/tui/render.go:updateCanvas", "internal/tui/render.go:renderNodes", "internal/tui/render.go:clearCanvas", "internal/tui/node.go:nodeColor", "internal/tui/color.go"]}
{"id": "C104", "title": "At most one dialog is open, it gets the keys, and closing it changes nothing", "statement": "At any time of a session of bbni, either no dialog (table, help, info) is open and the graph gets the keys, or exactly one is open and it gets the keys. The session starts with the info page if the network has a description. While a dialog is open, ESC, Enter and clicks close it, other keys are ignored, and the network, the evidence, the selection, the files and the program are not affected (in particular, ESC does not quit and Ctrl+S does not save). When no dialog is open, every key and click does what it means for the graph, also if the graph is scrolled. So every session is, up to open dialogs, a session without dialogs.", "quantifier": "all networks with which the app starts, all sequences of key presses and mouse clicks, all scroll offsets", "why_tests_cant": "ranges over all event sequences", "anchors": ["internal/tui/input.go:inputMainPanel", "internal/tui/input.go:mouseInputGraph", "internal/tui/input.go:mousePosInGraph", "internal/tui/input.go:showTable", "internal/tui/input.go:inputTable", "internal/tui/app.go:Run"]}
{"id": "C105", "title": "The table page shows the table of the selected variable; the border tells whether policies are ignored", "statement": "At any time of a session of bbni in which the table page is open, its title is the name of the selected variable and its cells are the variable's table in the file or, for a decision, the policy solved at the start: the names of the parents and outcomes in the first row; below, one row per combination of the parents' outcomes, with these outcomes and the numbers (utilities as they are, others in percent of their sum). The border of the graph is blue exactly while policies are ignored.", "quantifier": "all networks with which the app starts, all sequences of key presses and mouse clicks, all rows and columns (exact arithmetic)", "why_tests_cant": "ranges over all networks and event sequences", "anchors": ["internal/tui/input.go:showTable", "internal/tui/table.go", "internal/tui/input.go:toggleIgnorePolicy", "internal/tui/app.go:Run"]}
{"id": "C106", "title": "SolvePolicies returns policies for every network that New accepts", "statement": "For every network accepted by New, SolvePolicies returns policies, so that bbni starts and bbn inference prints its answers. (This fails if some decision is a parent of no chance and no utility variable, and if a decision informs itself through other decisions: then no policies are returned at all, not even for the other decisions. For well-formed networks, with utilities or without, these are the only obstacles.)", "quantifier": "all well-formed networks, both modes of SolvePolicies, all iteration orders of maps", "why_tests_cant": "ranges over all networks and iteration orders; a test shows single networks", "anchors": ["network.go:SolvePolicies", "ve/ve.go:SolvePolicies", "ve/ve.go:solvePolicies", "internal/tui/app.go:Run", "cmd/bbn/inference.go:runInferenceCommand"]}
{"id": "C107", "title": "Expected utilities add up, average, and stay within the table", "statement": "What SolveUtility returns for some evidence is the sum of what it returns if each outcome of one more variable is observed in addition. Divided by the probability of the evidence it is the average of the same quotients for the additional observations, weighted with the probabilities returned by SolveQuery; and it lies between the smallest and the largest entry of the utility variable's table.", "quantifier": "all well-formed networks with solved decisions, all evidence, observed variables and utility variables, both settings of ignorePolicies, all map orders of each call (exact arithmetic)", "why_tests_cant": "relates the results of several calls, for all networks and evidence", "anchors": ["network.go:SolveUtility", "network.go:SolveQuery", "ve/ve.go:SolveUtility"]}
{"id": "C108", "title": "Only the content of a network matters, not names or orders", "statement": "If a network is written down in another way - with other names for variables and outcomes, with variables, tables, parents and outcomes in another order, the tables rearranged accordingly - then SolveQuery gives corresponding outcomes the same probability and evidence the same probability, SolveUtility gives the same utilities, and after SolvePolicies both networks have the same expected total utility.", "quantifier": "all pairs of well-formed networks with the same content, all corresponding evidence, query and utility variables, stored policies that correspond, all map orders of all calls (exact arithmetic; for SolvePolicies: the declared order of decisions leaves no choice)", "why_tests_cant": "compares two networks, for all of them", "anchors": ["network.go:SolveQuery", "network.go:SolveUtility", "network.go:SolvePolicies", "network.go:prepareVariables", "network.go:toVE"]}
{"id": "C109", "title": "The policies from SolvePolicies can be carried out", "statement": "After SolvePolicies, in both modes, the stored policies can be carried out one after another as events happen: SolveQuery without evidence gives no evidence probability one, and SolveUtility without evidence reports no more than the largest and no less than the smallest utility of any world. The order in which decisions are listed plays no role.", "quantifier": "all well-formed networks with acyclic graph (parents of chance variables and observations of decisions), both modes, all map orders", "why_tests_cant": "a reported utility that no one can achieve looks like any other number; needs all networks and all orders of listing", "anchors": ["network.go:SolvePolicies", "ve/ve.go:SolvePolicies", "ve/ve.go:getDecisions", "ve/ve.go:sortTopological", "network.go:SolveUtility"]}
{"id": "C110", "title": "Moving the zero of the utilities moves the reported utilities by as much", "statement": "Adding one number to all entries of the table of a utility variable does not change the decision problem: with any evidence, SolveUtility for that variable reports the number times the probability of the evidence more, and for the total the weighted sum of the added numbers times that probability more. After SolvePolicies for all decisions together, in a network whose decisions are listed in the order in which they are taken, the best expected utility is larger by exactly the weighted sum of the added numbers.", "quantifier": "all well-formed networks (negative utilities included), all numbers added, evidence, weights of the total-utility node, both flags, all map orders", "why_tests_cant": "a table filled up with zeros, or a maximum that starts from zero, goes unnoticed while utilities are positive; needs all tables and numbers", "anchors": ["network.go:SolveUtility", "network.go:SolvePolicies", "ve/ve.go:SolveUtility", "ve/ve.go:SolvePolicies", "ve/variables.go:Policy"]}
{"id": "C111", "title": "Networks of logic nodes compute what the circuit computes", "statement": "Logic nodes act as gates: if all the other variables are observed, SolveQuery answers each gate with probability one for the outcome that its formula gives, however deep the gates are nested. If inputs are not observed, the answer for any variable is the share of the probability of those combinations of inputs for which the evaluated formulas agree with the question and the evidence (as in a fault tree).", "quantifier": "all well-formed networks in which some chance variables have tables that determine their outcome and no such variable feeds back into itself; all formulas, depths, evidence on inputs and gates, policies, map orders", "why_tests_cant": "tests evaluate a few gates; the claim ranges over all circuits and all evidence and needs the meaning of tables, parents and inference to fit together", "anchors": ["logic/factor.go:Get", "logic/simple.go", "logic/count.go", "logic/given.go", "logic/outcome.go", "logic/bits.go", "yml.go:toTable", "network.go:SolveQuery"]}
{"id": "C112", "title": "Trained tables fit the samples best", "statement": "After training with samples in which the outcomes of all chance and decision variables are known, no other non-negative chance tables for the same network give the samples a higher probability (multiplied over all samples) than the trained ones. The probability of a sample is what SolveQuery returns for nothing asked for and the whole sample as evidence.", "quantifier": "all well-formed networks, all sequences of samples added and updates, all other tables, map orders", "why_tests_cant": "tests compare trained tables with expected numbers; that no other tables fit better ranges over all tables and needs an inequality", "anchors": ["training.go:UpdateNetwork", "training.go:AddSample", "network.go:SolveQuery"]}
{"id": "C113", "title": "A trained network answers with relative frequencies", "statement": "After training with samples in which the outcomes of all chance and decision variables are known, if all parents of a chance variable are observed (and neither the variable nor its descendants), SolveQuery returns for it the share of the samples with each outcome among the samples with the parents' outcomes. What else is observed does not matter. If only the parents are observed, the question always has an answer.", "quantifier": "all well-formed networks without cycles, all sequences of samples added and updates, all evidence that agrees with some sample, map orders", "why_tests_cant": "a test trains one network and asks one question; the claim connects training and inference for all networks and samples", "anchors": ["training.go:UpdateNetwork", "training.go:AddSample", "network.go:SolveQuery"]}
{"id": "C114", "title": "Rounding errors of expected utilities", "statement": "If every sum, product and quotient of numbers has a relative error of at most u, and probabilities are not negative (utilities and weights may have any sign), SolveUtility returns for every combination of outcomes the exact expected utility of the same tables up to an error of at most E u / (1 - E u) times the expected sum of the absolute values of the utilities, where E is twice the number of all outcomes, plus six times the number of variables, plus one. This holds for one utility and for the (weighted) total, with evidence and query variables, with and without policies.", "quantifier": "all well-formed networks, evidence, query variables, all arithmetics with relative error u < 1, map orders", "why_tests_cant": "tests compare with a tolerance for some networks; with utilities of both signs the error is not relative to the result, so a bound needs a proof over all ways in which the solver may add and multiply", "anchors": ["network.go:SolveUtility", "ve/ve.go:SolveUtility", "ve/ve.go:sumUtilities", "ve/variables.go:Product", "ve/variables.go:Sum", "ve/variables.go:SumOut", "ve/variables.go:NormalizeFor"]}
{"id": "C115", "title": "Policies solved with rounded arithmetic are nearly the best", "statement": "If every sum, product and quotient of numbers has a relative error of at most u, and probabilities are not negative (utilities and weights may have any sign), the stepwise solving of policies ends, the decisions are solved in an order in which no decision comes before one it depends on, each policy depends on nothing but what is known when its decision is made, its probabilities are not negative and sum up to one up to two roundings. An outcome of a decision that gets a positive probability has an exact expected utility that falls short of that of any other outcome in the same situation (later decisions being made by the policies returned) by at most E u / (1 - E u) times the sum of the expected absolute utilities of the two, where E is twice the number of all outcomes, plus six times the number of variables, plus one.", "quantifier": "all well-formed networks with at least one decision and a utility, all arithmetics with relative error u < 1, map orders, outcomes and situations", "why_tests_cant": "tests solve small networks whose numbers have wide margins; with floating-point numbers a policy may differ from the exact one, and how much that can cost is a statement about all networks and all orders of summation", "anchors": ["network.go:SolvePolicies", "ve/ve.go:SolvePolicies", "ve/ve.go:SolveUtility", "ve/variables.go:Policy", "ve/variables.go:Rearrange", "ve/variables.go:SumOut"]}
{"id": "C116", "title": "A solver object can be asked again", "statement": "A user of the package ve may call SolveQuery (or SolveUtility) several times on the object that New returns, and each call answers what a new object would answer.", "quantifier": "all well-formed problems, all sequences of questions on one object, all evidence and query variables, map orders", "why_tests_cant": "tests make a new object for every question; what a call leaves behind for the next one matters only for sequences of calls", "anchors": ["ve/ve.go:New", "ve/ve.go:SolveQuery", "ve/ve.go:SolveUtility", "ve/ve.go:solve", "ve/ve.go:eliminateHidden", "ve/ve.go:removeUtilities"]}
{"id": "C117", "title": "SolveQuery answers or panics, and when", "statement": "SolveQuery of the package ve answers exactly if every chance variable that it has to sum out (neither observed, nor asked for, nor known to a decision) is in some probability table; otherwise it panics, and returns no number that could be mistaken for an answer.", "quantifier": "all well-formed problems (variables need not have tables), evidence, query variables, map orders", "why_tests_cant": "tests use problems in which every variable has a table; which problems are answered is a statement about all of them", "anchors": ["ve/ve.go:SolveQuery", "ve/ve.go:eliminateHidden", "ve/ve.go:removeHidden", "ve/variables.go:SumOut", "ve/variables.go:Product"]}
{"id": "C118", "title": "The same query gives the same numbers on every run", "statement": "Asking a network the same question with the same evidence again, or in another process, gives the same probabilities, to the last bit of the float64 numbers.", "quantifier": "all networks, evidence, queries, pairs of map iteration orders, any arithmetic with relative rounding errors", "why_tests_cant": "Go randomises the iteration order of maps, and with it the order of multiplications; a test run sees a few orders and compares with a tolerance", "anchors": ["ve/ve.go:removeHidden", "ve/ve.go:multiplyAll", "ve/ve.go:SolveQuery", "network.go:SolveQuery", "ve/variables.go:Product"]}
{"id": "C119", "title": "The same network gives the same policies on every run", "statement": "Solving the policies of the same network again, or in another process, gives the same policies.", "quantifier": "all networks, pairs of map iteration orders, any arithmetic with relative rounding errors", "why_tests_cant": "whether a last-bit difference turns into another decision depends on how close the alternatives are; tests look at a few networks with clear alternatives", "anchors": ["network.go:SolvePolicies", "ve/ve.go:SolvePolicies", "ve/ve.go:solvePolicies", "ve/variables.go:Policy"]}
{"id": "C120", "title": "Integers never wrap around", "statement": "On a 64-bit machine a table has one number for each combination of outcomes and Index gives its position; a table with more entries than an int can count is refused with a panic and never cut off silently. What SolveQuery, SolveUtility, SolvePolicies and the operations on factors return is what they would return with unbounded integers.", "quantifier": "all lists of variables, tables, 64-bit index arguments, networks, evidence, queries, map iteration orders, and all kinds of numbers in the tables", "why_tests_cant": "a table large enough to overflow does not fit into the memory of a test machine, and the interesting sizes are those that wrap around to a small number", "anchors": ["ve/variables.go:CreateFactor", "ve/factor.go:Index", "ve/factor.go:IndexWithNoData", "ve/factor.go:RowIndex", "ve/factor.go:Get", "ve/factor.go:Set", "ve/factor.go:Row", "ve/variables.go:Product", "network.go:SolveQuery", "network.go:SolvePolicies"]}
{"id": "C121", "title": "Possible evidence gets a number in float64", "statement": "If the evidence has a positive probability, SolveQuery returns for every outcome a finite number close to its exact posterior probability, and 0 only if the outcome is impossible, although products of small probabilities may leave the range of float64.", "quantifier": "all arithmetics that round with a relative error of at most u inside a range and do anything outside of it, all networks, evidence, queries and map iteration orders", "why_tests_cant": "whether an intermediate product underflows depends on the network, the evidence and the elimination order; tests use a few probabilities of moderate size", "anchors": ["network.go:SolveQuery", "network.go:normalize", "ve/variables.go:Product", "ve/variables.go:SumOut", "ve/variables.go:NormalizeFor", "ve/ve.go:SolveQuery"]}
{"id": "C122", "title": "The factor from SolveQuery is the joint posterior", "statement": "The factor that SolveQuery returns has every query variable once; the only other variables it can have are decisions without a policy and their parents. Normalised, it holds the posterior probability of every combination of their outcomes. Rearranged to the order of the query, its numbers are in row-major order and the same on every run.", "quantifier": "all networks, policies, possible evidence, queries of any number of variables and map iteration orders", "why_tests_cant": "the tests look at the marginals or at one small factor; a joint distribution over several variables is not determined by its marginals, and which variables remain depends on the structure of the network", "anchors": ["network.go:SolveQuery", "network.go:Rearrange", "network.go:Normalize", "ve/ve.go:SolveQuery"]}
{"id": "C123", "title": "Returned tables have the same layout on every run", "statement": "The tables that SolvePolicies returns list the parents in the same order on every run, with the same numbers in the same places; so does the factor that SolveQuery returns with its variables.", "quantifier": "all networks, evidence, queries and pairs of map iteration orders", "why_tests_cant": "the map iteration order changes from run to run, so a test that compares the flat table fails only sometimes", "anchors": ["network.go:SolvePolicies", "network.go:SolveQuery", "ve/ve.go:SolvePolicies", "ve/variables.go:Policy", "ve/variables.go:Product"]}
{"id": "C124", "title": "More options and higher utilities never hurt", "statement": "If decisions get further outcomes, or utilities get higher, and nothing else changes for the old outcomes, the expected utility that SolveUtility reports after solving all decisions together does not get smaller.", "quantifier": "all pairs of well-formed decision networks of which the second offers at least what the first offers, if the declared order of the decisions leaves no choice, all map orders (exact arithmetic)", "why_tests_cant": "it compares two networks with tables of different sizes; a test can do so for a few pairs only", "anchors": ["network.go:SolvePolicies", "network.go:SolveUtility", "ve/ve.go:SolvePolicies", "ve/variables.go:Policy"]}
{"id": "C125", "title": "Repeating all data does not change what is learned", "statement": "Training with data in which every sample is repeated equally often, in any order, gives the same network (or the same error) as training with the data itself.", "quantifier": "all networks, all lists of samples, all numbers of repetitions and orders (exact arithmetic)", "why_tests_cant": "the tests train with one small data set", "anchors": ["training.go:NewTrainer", "training.go:AddSample", "training.go:UpdateNetwork"]}
{"id": "C126", "title": "Training forgets the old tables", "statement": "What training makes of the tables of chance and utility variables does not depend on the numbers that were in them before; so training a trained network again with the same samples changes nothing.", "quantifier": "all pairs of networks that differ only in the numbers in their tables, all fitting lists of samples for which training succeeds", "why_tests_cant": "the tests train each network once", "anchors": ["training.go:NewTrainer", "training.go:AddSample", "training.go:UpdateNetwork"]}
{"id": "C127", "title": "Small errors in the tables make small errors in the answers", "statement": "If the rows of the probability tables of two networks differ by at most some amount per variable (total variation distance), the answers of SolveQuery differ by at most the sum of these amounts divided by the probability of the evidence; evidence that is more likely than this sum is possible in both. Expected utilities differ by at most the sum times the range of the utilities.", "quantifier": "all pairs of networks with the same acyclic structure, all tables, evidence and queries, all map orders (exact arithmetic)", "why_tests_cant": "a test compares the answers for a few pairs of tables; the bound is for all tables at once", "anchors": ["network.go:SolveQuery", "network.go:SolveUtility"]}
{"id": "C128", "title": "Observing what is certain changes nothing", "statement": "If SolveQuery gives an outcome probability one, then observing this outcome in addition changes no answer of SolveQuery for another variable and no answer of SolveUtility. What has probability zero or one keeps it, whatever else (that is possible) is observed.", "quantifier": "all networks with non-negative tables (with or without stored policies), all evidence, variables and outcomes, all map orders (exact arithmetic)", "why_tests_cant": "it relates answers to several calls for all networks; tests look at single answers", "anchors": ["network.go:SolveQuery", "network.go:SolveUtility"]}
{"id": "C129", "title": "A network can be asked by several goroutines", "statement": "Goroutines that call SolveQuery and SolveUtility get the same answers as if each call were made alone, in every interleaving, provided that no two of them are in a call on the same network at the same time (a lock per network, or one network per goroutine). Without that, a goroutine that shares a network with another one may get a wrong posterior, without an error.", "quantifier": "all networks, any number of goroutines and calls, all interleavings of the steps of the calls, all map orders", "why_tests_cant": "tests run one goroutine, and a race shows up only for some interleavings", "anchors": ["network.go:SolveQuery", "network.go:SolveUtility", "network.go:solve", "network.go:toVE", "network.go:Marginal", "network.go:Normalize"]}
{"id": "C130", "title": "Networks do not influence each other", "statement": "Creating or training a network leaves all other networks as they were, and a network trained several times in turn with others ends up as if it had been trained alone, provided that no two networks were given the same slices of variables or factors, and no two factors the same table slice. Without that, training one network changes the answers of another: New keeps the slices it is given.", "quantifier": "all networks, all heaps, all sequences of training runs on any number of networks", "why_tests_cant": "tests look at one network at a time", "anchors": ["network.go:New", "network.go:prepareVariables", "network.go:Row", "training.go:UpdateNetwork"]}
{"id": "C131", "title": "SolveQuery answers, returns an error or panics: exactly when", "statement": "SolveQuery returns an error exactly if an evidence variable, an observed outcome or a query variable is unknown (the total-utility node counts as unknown). Otherwise it answers exactly if every query variable is a chance or decision variable, is not observed, and occurs in a probability table or a policy in force. In all other cases it panics. This holds if no evidence is about a utility variable; such evidence is not refused, and its table is taken for a probability.", "quantifier": "all well-formed networks (names unique, parents known, tables of the right size; with or without stored policies), all evidence maps and query lists, all map orders", "why_tests_cant": "tests try some calls; that no other call panics, and which do, is about all of them", "anchors": ["network.go:SolveQuery", "network.go:solve", "network.go:Marginal", "ve/ve.go:removeUtilities", "ve/variables.go:Marginal"]}
{"id": "C132", "title": "SolveUtility returns utilities or an error", "statement": "SolveUtility returns an error exactly if an evidence variable, an observed outcome, a query variable or the utility variable is unknown, and an answer otherwise; it never panics (if no evidence is about a utility variable). The answer is a table of utilities only if the network has utility variables and the name is empty or that of a utility variable: for a chance or decision variable, or in a network without utilities, it is the table of probabilities that SolveQuery returns.", "quantifier": "all well-formed networks (names unique, parents known, tables of the right size; with or without stored policies), all evidence maps, query lists and utility names, all map orders", "why_tests_cant": "tests try some calls; the claim is about all of them", "anchors": ["network.go:SolveUtility", "network.go:solve", "ve/ve.go:sumUtilities", "ve/ve.go:removeUtilities"]}
{"id": "C133", "title": "Train, store, ask: the command line prints relative frequencies of the data", "statement": "The output of `bbn train` for a network of chance variables without cycles and a data file without missing values is stored in a file. `bbn inference` on this file, with evidence that has all the parents of a variable, but neither the variable nor a descendant of it, and that agrees with some record, prints for this variable the shares of its outcomes among the records with these outcomes of the parents, in percent with three digits after the point.", "quantifier": "all network files that load, all data files, all evidence of the kind described, all map orders", "why_tests_cant": "the claim spans two commands, three files and all data; tests look at single functions on small samples", "anchors": ["cmd/bbn/train.go", "cmd/bbn/inference.go", "internal/tui/training.go:TrainNetwork", "training.go:UpdateNetwork", "yml.go:ToYAML", "yml.go:FromYAML", "network.go:SolveQuery"]}
{"id": "C134", "title": "How much memory a query needs depends on the graph only", "statement": "For a network of chance variables, whether `SolveQuery` succeeds on a computer that can make tables of up to L entries is decided by the graph, the numbers of outcomes, and which variables are observed and asked for: the variables that are neither are taken out one after the other, those with the fewest neighbours among unobserved variables first and earlier listed ones first among equals, each making a table over itself and all its neighbours of the moment. If all these tables and the given ones have at most L entries, the answer is that of an unlimited computer, otherwise the program ends. The numbers in the tables, the observed outcomes and map orders do not matter.", "quantifier": "all valid networks of chance variables, all evidence, all queries, all limits L, all map orders", "why_tests_cant": "memory limits cannot be explored by running small examples; the claim is an equivalence over all networks and limits", "anchors": ["network.go:SolveQuery", "ve/ve.go:SolveQuery", "ve/ve.go:eliminateHidden", "ve/variables.go:CreateFactor", "ve/variables.go:Product"]}
{"id": "C135", "title": "Networks with at most one parent for each variable are answered with small tables", "statement": "If every variable has at most one parent, then `SolveQuery` makes no tables much larger than the given ones. This is false: in a tree of 1 + m + m² variables with two outcomes each, a query for a single variable makes a table of 2^(m+1) entries, because the root has fewer neighbours than its children and is taken out first. It holds if the variables with children form a line, each with its predecessor as only possible parent (chains, naive Bayes classifiers, hidden Markov models): with up to k outcomes per variable, tables of k^(3+q) entries suffice for a query for q variables, however large the network is.", "quantifier": "refutation: all m from 1 to 255; positive part: all valid networks around a line, all evidence, all queries, all map orders", "why_tests_cant": "the blow-up shows only for larger trees, and the bound holds for networks of any length", "anchors": ["network.go:SolveQuery", "ve/ve.go:eliminateHidden", "ve/variables.go:Product"]}
{"id": "C136", "title": "Observing more variables never needs more memory", "statement": "If a `SolveQuery` call fits into memory, then it still does with one more variable observed. This is false: in a tree of two-outcome variables, a query without evidence makes no table of more than eight entries, while with one observed variable it makes one of 2^(c+2), for every c from 2 to 250. It holds if the remaining variables are taken out in the same order as before.", "quantifier": "refutation: all c from 2 to 250; positive part: all valid networks of chance variables, all evidence and queries, all limits, all map orders", "why_tests_cant": "needs networks too large to run, and a statement about all networks for the positive part", "anchors": ["network.go:SolveQuery", "ve/ve.go:eliminateHidden", "ve/ve.go:eliminateEvidence", "ve/variables.go:Product"]}
{"id": "C137", "title": "Between two opinions, answers are in between", "statement": "Two networks have the same variables and parents but give different probabilities; a third network has the mixture of their probabilities, with weights 1-t and t. Then every probability that `SolveQuery` gives in the third network lies between those it gives in the two. If the networks differ in the table of one variable, this holds, with any evidence possible in both: all answers are mixtures of the two with the same weights, namely 1-t and t multiplied by the probability that each network gives to the evidence; without evidence the weights are 1-t and t. If two tables are mixed at once it is false: two networks that both say two causes agree for sure, half way between them they differ with probability one half.", "quantifier": "all triples of valid networks without policies that differ in the table of one variable, all weights, all evidence, all chance variables asked for, all map orders and schedules of the three calls", "why_tests_cant": "quantifies over all tables, all weights and all networks around them; a test sees finitely many points of a curve", "anchors": ["network.go:SolveQuery", "ve/ve.go:SolveQuery", "ve/variables.go:Product", "ve/variables.go:NormalizeFor"]}
{"id": "C138", "title": "Only the joint distribution matters, not the arrows", "statement": "Two networks over the same variables whose tables have the same products (joint probabilities) in all situations that agree with the evidence, up to a constant factor, give the same answers from `SolveQuery`, whatever parents they declare. In particular a parent that makes no difference can be left out or added, and an arrow can be turned around if the two tables are replaced by those of Bayes' rule. If the networks have no decisions and the utilities are the same in every situation, `SolveUtility` gives the same too.", "quantifier": "all pairs of valid networks without policies over the same variables, all evidence possible in the first, all lists of chance variables asked for, all map orders and schedules of both calls", "why_tests_cant": "quantifies over pairs of networks with different graphs; the solver takes a different way through each of them", "anchors": ["network.go:SolveQuery", "network.go:SolveUtility", "ve/ve.go:SolveQuery", "ve/variables.go:Product", "ve/variables.go:NormalizeFor"]}
{"id": "C139", "title": "A sensor's reading multiplies the odds", "statement": "A chance variable measures x: its parents are x and possibly observed variables, and nothing below it is observed. Then observing its outcome o changes the answer of `SolveQuery` for x by Bayes' rule: each probability is multiplied by the probability of o in the row of the sensor's table, and the results are divided by their sum. For any observed variable only the ratios of the probabilities of the observed outcome between situations matter: if these are multiplied by a constant, and the probabilities of the other outcomes changed in any way, all answers stay the same.", "quantifier": "all valid networks without policies (for the first part without cycles and all-zero rows), all evidence, all sensors and outcomes with possible evidence, all map orders and schedules of both calls", "why_tests_cant": "quantifies over all networks around the sensor and all tables", "anchors": ["network.go:SolveQuery", "ve/ve.go:SolveQuery", "ve/variables.go:Restrict", "ve/variables.go:NormalizeFor"]}
{"id": "C140", "title": "It never helps not to know which of two experts is right", "statement": "Two networks differ in the probabilities of one variable, or in the utilities; a third has a mixture of these, with weights 1-t and t. Without decisions, `SolveUtility` returns for the third the same mixture of what it returns for the two, with any evidence. With decisions, the expected utility that `SolveUtility` reports after `SolvePolicies` is for the third network at most the mixture of what it reports for the two.", "quantifier": "all triples of valid networks of the same form that differ in the probabilities of one chance variable or in the utility tables, all weights between zero and one; with decisions: solved together, in a fixed order, each able to matter; all map orders and schedules of all calls", "why_tests_cant": "quantifies over all networks, all tables and all weights; with decisions it compares three maxima over all strategies", "anchors": ["network.go:SolvePolicies", "network.go:SolveUtility", "ve/ve.go:SolvePolicies", "ve/ve.go:SolveUtility", "ve/variables.go:Policy"]}
{"id": "C141", "title": "Chance variables that nothing depends on do not change expected utilities or the value of decisions", "statement": "Two networks have the same utilities and, for everything observed, for the parents of the utilities asked for, and for all ancestors of these, the same variables and tables. Without decisions, `SolveUtility` returns the same for both. With the same decisions with the same parents, where these are common as well, `SolveUtility` reports the same expected utility for both after `SolvePolicies`. What other chance variables the networks have, and the order in which variables and tables are listed, does not matter.", "quantifier": "all pairs of valid acyclic networks whose tables have no all-zero rows, with a common part as described; without decisions: all evidence and each utility variable or the total; with decisions: nonnegative tables, decisions solved together, in a fixed order, each able to matter; all map orders and schedules of all calls", "why_tests_cant": "quantifies over pairs of networks of unbounded size with arbitrary further variables; with decisions it compares two maxima over all strategies", "anchors": ["network.go:SolvePolicies", "network.go:SolveUtility", "ve/ve.go:SolvePolicies", "ve/ve.go:SolveUtility", "ve/ve.go:eliminateHidden"]}
{"id": "C142", "title": "An option that is always worse than another is never recommended", "statement": "In a network with one decision that has no influence on chance variables: if one option of the decision gives a lower total utility than another one, whatever the outcomes of the other variables are, then the policy returned by `SolvePolicies` gives it probability zero, in every situation that can occur.", "quantifier": "all valid networks with one decision that is a parent of utilities only, with nonnegative tables; all pairs of options of which one is worse; all situations of positive probability; stepwise or not; all map orders", "why_tests_cant": "a policy is compared for all networks and all situations; a network in a test has a few fixed tables", "anchors": ["network.go:SolvePolicies", "ve/ve.go:SolvePolicies", "ve/variables.go:Policy"]}
{"id": "C143", "title": "Options that are never chosen can be left out", "statement": "One network has the decisions of another one with further options, and for the common options the same tables and total utilities. If the policies for the larger network do not choose the further options in any situation that can occur, `SolveUtility` reports the same expected utility for both networks after `SolvePolicies`. With C142: in a network with one decision that has no influence on chance variables, options that are always worse than another one can be left out.", "quantifier": "all pairs of valid networks as described, with nonnegative tables, decisions in a fixed order, each able to matter, solved together; any number of decisions and further options; all map orders and schedules of all calls", "why_tests_cant": "compares two maxima over all strategies of networks of unbounded size", "anchors": ["network.go:SolvePolicies", "network.go:SolveUtility", "ve/ve.go:SolvePolicies", "ve/ve.go:SolveUtility"]}
{"id": "C144", "title": "A network with tables that do not fit never gives numbers", "statement": "`New` accepts networks with tables for unknown variables, tables with too few or too many numbers, and total-utility nodes that leave out a utility variable. With such a network `SolveQuery`, `SolveUtility` and `SolvePolicies` never return an answer. If the first table that does not fit (in the order listed) is for an unknown variable or has an unknown parent, all three return an error; if it has the wrong number of entries, all three panic; if all tables fit and a utility variable is missing in the total utility, all three return an error.", "quantifier": "all networks with unique non-empty names, up to 65536 variables and 1 to 65535 outcomes each, with any tables at all; all evidence, queries, utility names, stepwise or not, with or without stored policies (the last statement: without); all map orders", "why_tests_cant": "the tables are arbitrary, of any number and size, and a wrong one may hide behind any number of good ones; a test has a few wrong files", "anchors": ["network.go:SolveQuery", "network.go:SolveUtility", "network.go:SolvePolicies", "network.go:toVE", "network.go:prepareUtilityWeights", "ve/variables.go:CreateFactor", "ve/variables.go:NormalizeFor"]}
{"id": "C145", "title": "A variable without numbers is not taken as equally likely: all answers are NaN", "statement": "A chance or utility variable without numbers (a YAML file may leave out the table) is accepted and solved exactly as if all its numbers were zero, by `SolveQuery`, `SolveUtility` and `SolvePolicies`. So if a chance variable has no numbers, `SolveQuery` gives NaN for each outcome of each query variable, without an error.", "quantifier": "all networks with unique non-empty names, up to 65536 variables and 1 to 65535 outcomes each, any number of variables without numbers; for NaN: networks that are well-formed with zeros filled in, nonnegative tables, all evidence and queries about known variables; all arithmetics, all map orders", "why_tests_cant": "the missing table may be anywhere in a network of any size, and the question about any other variable", "anchors": ["network.go:toVE", "network.go:SolveQuery", "network.go:SolveUtility", "network.go:SolvePolicies", "ve/variables.go:CreateFactor", "yml.go:toTable"]}
{"id": "C146", "title": "A chance variable without a table is taken as equally likely if something depends on it, and makes every query panic otherwise", "statement": "`New` accepts a chance variable for which no table is given. If each such variable is observed or is a parent of another chance variable (or of a solved decision in force), `SolveQuery` answers exactly as if the outcomes of these variables were equally likely. If such a variable is not observed and nothing depends on it, every `SolveQuery` panics, also for other variables; the exception is a variable that is a parent of an unsolved decision and is not asked for.", "quantifier": "all networks that are well-formed once an even table is added for each chance variable without one, any number of such variables; all stored policies, evidence, known query variables, both values of ignorePolicies, all map orders in both networks", "why_tests_cant": "the missing variable may be anywhere in a network of any size, and the question about any other variable; a test shows one network", "anchors": ["network.go:New", "network.go:toVE", "network.go:SolveQuery", "ve/ve.go:SolveQuery", "ve/variables.go:Product"]}
{"id": "C147", "title": "Outcomes that nothing distinguishes can be merged", "statement": "Suppose that outcomes of a chance variable are merged into one whose probability is the sum, and that the probabilities of all other variables do not tell the merged outcomes apart. Then `SolveQuery` gives the same answers for all other variables, and for a merged outcome the sum of the answers for its parts. If the utilities do not tell them apart either, `SolveUtility` gives the same expected utilities; with decisions that do not know the variable, also after `SolvePolicies`. So it does not matter how finely the outcomes of a variable are divided beyond what makes a difference.", "quantifier": "all pairs of well-formed networks of this kind without stored policies, any grouping of the outcomes of any chance variable; all possible evidence about other variables and about outcomes that are not merged, all queries for chance variables, all map orders in both networks; utilities for networks without decisions and, without evidence, for networks whose decisions the code can solve one after another", "why_tests_cant": "the grouping, the network and the evidence are arbitrary; a test compares two networks", "anchors": ["network.go:SolveQuery", "network.go:SolveUtility", "network.go:toVE"]}
{"id": "C148", "title": "A variable in between can be left out", "statement": "Suppose that a chance variable is a parent of one other chance variable only. If it is left out, and its child gets the parents of both and the probabilities summed over the outcomes of the variable left out, then `SolveQuery` gives the same answers for all other variables with all evidence about them. If the utilities do not depend on the variable left out, `SolveUtility` gives the same expected utilities; with decisions that do not know the variable, also after `SolvePolicies`.", "quantifier": "all pairs of well-formed networks of this kind without stored policies; all possible evidence and all queries for chance variables other than the one left out, all map orders in both networks; utilities for networks without decisions and, without evidence, for networks whose decisions the code can solve one after another", "why_tests_cant": "the variable, its place in the network and the evidence are arbitrary; a test compares two networks", "anchors": ["network.go:SolveQuery", "network.go:SolveUtility", "network.go:toVE"]}
{"id": "C149", "title": "Trying the options one by one shows that the recommended option is the best", "statement": "After `SolvePolicies` has solved the decisions, with evidence about chance variables that are known when a decision is taken: the utility that `SolveUtility` reports is at least the one it reports if any option of the decision is observed in addition (with the policies ignored); if everything that is known is observed, it is equal for the options the policy takes. The probability of the evidence is the same for all options. The same holds for the total utility that bbni shows before and after an option is chosen with policies ignored.", "quantifier": "all well-formed networks with a utility, non-negative probabilities and decisions that matter, solved in one step (or with one decision); all decisions, all options, all evidence about chance variables that the decision knows, all map orders; the probabilities for well-formed networks whose rows are regular, either kind of solving; bbni for all sessions with one decision", "why_tests_cant": "networks, decisions, evidence and sessions are arbitrary; a test tries the options of one decision in one network", "anchors": ["network.go:SolvePolicies", "network.go:SolveUtility", "network.go:SolveQuery", "network.go:policyFactors", "internal/tui/solve.go:Solve"]}
{"id": "C150", "title": "In every situation that can occur, the policy takes exactly the best options, evenly", "statement": "After `SolvePolicies`, in every situation that can occur, the policy of a decision gives each option that is worth most the same probability, one divided by their number, and every other option the probability zero. What an option is worth is the expected utility over all that the decision does not know, with later decisions following their policies.", "quantifier": "all well-formed networks with a utility, non-negative probabilities and decisions that matter; for solving one after another all decisions, for solving together the decision taken last; all worlds of positive probability, all options, all map orders", "why_tests_cant": "networks and situations are arbitrary, and ties between options are rare in tests; a test sees one policy of one network", "anchors": ["network.go:SolvePolicies", "ve/ve.go:SolvePolicies", "ve/variables.go:Policy"]}
{"id": "C151", "title": "How likely a situation is does not matter for what to do in it", "statement": "If the tables of chance variables that every decision knows (and whose parents every decision knows) are replaced by other tables with positive probabilities, `SolvePolicies` returns policies that take the same decisions, with the same probabilities, in every situation that can occur.", "quantifier": "all well-formed networks with a utility, non-negative probabilities, any number of decisions that matter and are listed in order, solved one after another; any set of such variables, any positive tables of the right size, all worlds that can occur if the later decisions follow their policies, all map orders in both runs", "why_tests_cant": "networks, replaced tables and situations are arbitrary, and two runs are compared; a test changes one table of one network", "anchors": ["network.go:SolvePolicies", "ve/ve.go:SolvePolicies", "ve/variables.go:Policy"]}
{"id": "C152", "title": "Information that says nothing about the rest does not change what to do", "statement": "If a chance variable that every decision knows is not a parent of any chance or utility variable, the policies that `SolvePolicies` returns take the same decisions for all its outcomes, in every situation that can occur.", "quantifier": "all well-formed networks with a utility, non-negative probabilities, any number of decisions that matter and are listed in order, solved one after another; all such variables (which may have parents that the decisions know), all their outcomes, all worlds that can occur if the later decisions follow their policies, all map orders", "why_tests_cant": "networks and situations are arbitrary; a test looks at two rows of one policy", "anchors": ["network.go:SolvePolicies", "ve/ve.go:SolvePolicies", "ve/variables.go:Policy"]}
{"id": "C153", "title": "Trying the options by hand gives exactly the policy", "statement": "After `SolvePolicies` of a network with one decision: observe all parents of the decision, in a way that can occur, and ask `SolveUtility` for the expected total utility with each option of the decision observed in addition (policies ignored). The policy returned by `SolvePolicies` takes, for this observation, exactly the options with the largest of these numbers, all with the same probability.", "quantifier": "all well-formed networks with a utility, non-negative probabilities and one decision that matters, with any number of options and parents; all observations of all parents that have positive probability, both ways to solve, all map orders in all calls", "why_tests_cant": "relates a whole row of the policy to one call per option, for arbitrary networks and observations; a test compares one row with two calls", "anchors": ["network.go:SolvePolicies", "network.go:SolveUtility", "ve/ve.go:SolvePolicies", "ve/ve.go:SolveUtility", "ve/variables.go:Policy"]}
{"id": "C154", "title": "Rolling back the decision tree by hand gives the value of the solved network", "statement": "Let the decisions and the things observed before them stand on a timeline, so that the parents of each decision are exactly what comes before it. Ask `SolveUtility` for the number at the end of each path through the tree, with everything on the timeline observed, and roll the tree back as in a textbook: at a decision take the largest branch, at an observation add the branches. The number at the root is the expected total utility that `SolveUtility` reports without evidence after `SolvePolicies`, whether the decisions are solved together or one after another.", "quantifier": "all well-formed networks with a utility, non-negative probabilities and decisions that matter, with any number of decisions and observations on the timeline and any number of variables that never become known; both ways to solve, all map orders in all calls, policies used or ignored", "why_tests_cant": "relates exponentially many calls to one, for trees of any depth; a test compares one network with one number worked out by hand", "anchors": ["network.go:SolvePolicies", "network.go:SolveUtility", "ve/ve.go:SolvePolicies", "ve/ve.go:SolveUtility"]}
{"id": "C155", "title": "At every node of the decision tree the solved network knows the value", "statement": "With the timeline of C154, whether the decisions were solved one after another or together: follow any path from the root to a node of the tree, also one that the policies would never take, and observe it (`ignorePolicies` set, so that the decisions on the path count as tried). `SolveUtility` then reports the number that rolling back the rest of the tree by hand gives for this node. So the policies are best not only at the start but in every situation in which one may find oneself.", "quantifier": "all well-formed networks with a utility, non-negative probabilities and decisions that matter, all timelines, all paths of any length, all map orders in all calls", "why_tests_cant": "a statement about every node of trees of any depth, including those off the recommended path; a test visits a few nodes of one tree", "anchors": ["network.go:SolvePolicies", "network.go:SolveUtility", "ve/ve.go:SolvePolicies", "ve/ve.go:SolveUtility"]}
{"id": "C156", "title": "Solved together, every decision answers the later ones in the best way", "statement": "Solve all decisions in one go. There is an order of the decisions that respects the declared one, and is the listed order if this does, such that: in every situation, also one that never comes up under the policies, each decision takes only options that are best, if the later decisions follow their returned policies, as far as can be told from what this decision and the earlier ones know. So no policy is merely good on average: it never wastes anything in a rare or impossible situation.", "quantifier": "all well-formed networks with a utility, non-negative probabilities and decisions that matter, any number of decisions, all worlds, all options, all map orders in all calls", "why_tests_cant": "optimality of the expected utility (C81) says nothing about situations of probability zero; to see this one has to compare all options in all situations for all networks", "anchors": ["network.go:SolvePolicies", "ve/ve.go:SolvePolicies", "ve/variables.go:Policy"]}
{"id": "C157", "title": "The answer of today is the prior of tomorrow", "statement": "Make some observations, ask for the distribution of a chance variable without parents, and write the answer into the variable's table. From then on the first observations can be forgotten: with any further observations, the changed network answers all queries exactly as the unchanged network does with the first and the further observations together, if the variable separates the first observations from the further ones and from what is asked for. So a network can be updated step by step without a record of the past.", "quantifier": "all well-formed networks without cycles, all-zero rows and stored policies, all chance variables without parents, all first and second groups of observations that are possible, all lists of queries, all ways to put the answer into a table, all map orders in all calls", "why_tests_cant": "a test updates one network with one sequence of observations; the equality is about all networks, all sequences and all queries, and it depends on a separation in the graph", "anchors": ["network.go:SolveQuery", "network.go:New", "ve/ve.go:SolveQuery", "ve/factor.go:Normalize"]}
{"id": "C158", "title": "As one number in a table varies, every answer is a quotient of two straight lines", "statement": "One number x in the table of a chance variable is not well known. As it varies while everything else, including the stored policies, stays as it is, the probability of outcome k in the answer to a query is (a_k x + b_k) / (c x + d), with numbers a_k, b_k, c, d that do not depend on x, and a denominator that is common to all outcomes. The expected utility given the evidence has the same form. So a few queries determine the answers for all values of x; and an answer for a value in between two others is in between the two answers.", "quantifier": "all well-formed networks with or without stored policies, all entries of all tables of chance variables, all values for which the row does not sum to zero and the evidence is possible, all evidence, all queries for chance variables and all utilities, all map orders in all calls", "why_tests_cant": "a test tries some values of one entry; it cannot show that no other value gives an answer off the curve", "anchors": ["network.go:SolveQuery", "network.go:SolveUtility", "ve/ve.go:SolveQuery", "ve/ve.go:SolveUtility", "ve/factor.go:NormalizeFor"]}
{"id": "C159", "title": "For a variable without parents, observing an outcome is the same as making it certain", "statement": "Observe an outcome of a chance variable without parents. The answers to all queries for other chance variables are the same as those of the network in which this variable's table has a one for the outcome and zeros for the others, and the variable is not observed; all further observations are the same in both. So evidence about a root can be built into a network for good. (For a variable with parents this is not so: observing it says something about the parents, making it certain does not.)", "quantifier": "all well-formed networks without stored policies, all chance variables without parents, all outcomes, all further observations that are possible together with it, all lists of query variables, all map orders in all calls", "why_tests_cant": "a test compares two networks for one observation; the equality is for all networks and all further observations", "anchors": ["network.go:SolveQuery", "network.go:ToEvidence", "network.go:New", "ve/ve.go:SolveQuery"]}
{"id": "C160", "title": "As long as decisions are open, queries treat them as taken by chance with all options equally likely", "statement": "In a network with decisions and no stored policies, SolveQuery gives the same answers as the network in which each decision is a chance variable with the same outcomes and a table in which all outcomes are equally likely, whatever its parents. This holds for all chance variables and for decisions that some chance variable depends on, whether or not decisions are observed. (For a decision that no chance variable depends on the code panics instead of giving an even answer; see C131.)", "quantifier": "all well-formed networks without stored policies, all networks with even chance variables in place of the decisions, all possible observations, all lists of query variables that occur in the table of a chance variable, all map orders in all calls", "why_tests_cant": "a test compares two networks for one query; the equality is for all networks, decisions, parents of decisions and observations", "anchors": ["network.go:SolveQuery", "network.go:New", "ve/ve.go:SolveQuery"]}
{"id": "C161", "title": "What to do depends on the joint probabilities and the total utility only", "statement": "Take two networks with the same variables and with the same parents for each decision. If in every situation the products of the probability tables are the same up to a positive factor, and the total utilities (the weighted sums of all utilities) are the same up to a positive factor, then SolvePolicies, solving step by step, returns the same decisions for every situation that can occur. It does not matter which arrows there are between the chance variables, how the total is split into several utility variables and weights, and in which unit utilities are given. If every variable can be given a time (parents before chance variables, observations before decisions, decisions as listed) and no table row sums to zero, the total utilities may also differ by a constant: the zero of the utilities does not matter either. The expected utility that SolveUtility reports afterwards without evidence differs by the same factor and constant as the total utilities, times the factor of the probabilities. With a single decision and without such a constant, the returned decisions are the same in both modes of SolvePolicies, also if the two networks are solved in different modes.", "quantifier": "all pairs of well-formed solvable networks over the same variables whose decisions are listed in an order that fits their parents, all positive factors, all situations that can occur under the later decisions, all map orders in all calls", "why_tests_cant": "a test compares two networks; the equality is for all ways to write down the same problem", "anchors": ["network.go:SolvePolicies", "network.go:New", "ve/ve.go:SolvePolicies", "ve/variables.go:Policy"]}
{"id": "C162", "title": "Only the trained tables fit the samples best", "statement": "Train a network with samples in which the outcomes of all chance and decision variables are known. If other non-negative chance tables give the samples, multiplied over all of them, a probability at least as high as the trained tables do, then they give every outcome of every variable the trained probability, whatever the outcomes of the parents; and SolveQuery gives the same answers with them. The probability of a sample is what SolveQuery returns for nothing asked for and the whole sample as evidence.", "quantifier": "all well-formed networks, all sequences of samples added and updates, all other tables, map orders; for the answers: networks without solved policies, all evidence of positive probability", "why_tests_cant": "tests compare trained tables with expected numbers; that there are no other tables that fit as well ranges over all tables and needs the case of equality in an inequality", "anchors": ["training.go:UpdateNetwork", "training.go:AddSample", "network.go:SolveQuery"]}
{"id": "C163", "title": "Training gives back the probabilities that the data follow", "statement": "Take samples in which the outcomes of all chance and decision variables are known. Suppose that the samples follow the chance tables of a network: how often each combination of outcomes occurs is the product of the probabilities, times a factor that depends on the decisions only; or the decisions were taken by some rule after observations, and how often each combination occurs is proportional to the joint distribution of the network in which the decisions are chance variables with that rule as table. If UpdateNetwork reports no error, then training gives every chance variable the probabilities that the data follow, and in the first case SolveQuery gives the same answers as in the network that the data follow.", "quantifier": "all well-formed networks, all sequences of samples added and updates, all acyclic networks without zero rows that the data follow, all ways to take the decisions, map orders; for the answers: all evidence of positive probability", "why_tests_cant": "a test has one data set and one network; that the right probabilities come out, whatever the network and however decisions were taken, is a statement about all distributions", "anchors": ["training.go:UpdateNetwork", "training.go:AddSample", "network.go:SolveQuery"]}
{"id": "C164", "title": "Decisions learned from data are those of the network that the data follow", "statement": "Take a network without total-utility node, and samples in which the outcomes of all chance and decision variables are known. Suppose that the samples follow another network with the same variables and parents: how often each combination of outcomes occurs is as in C163, and the utility values in the samples with the same outcomes of the parents of a utility variable are on average the utility in that network. If UpdateNetwork reports no error, then the total utility after training is half of the right one in every situation, but SolvePolicies(true) decides in the trained network as in the network that the data follow, in every situation that is possible there. This is so for decisions taken at random and for decisions taken by any rule after observations. The expected utility that SolveUtility then reports without evidence is half of the right one. For decisions taken at random, the solved networks also agree after evidence (policies not ignored, or only chance variables observed): same probability of the evidence, half the total utility, same distribution of every other variable from SolveQuery.", "quantifier": "all well-formed networks without total-utility node whose decisions are listed in order and can matter, all sequences of samples added and updates, all acyclic networks without zero rows that the data follow, all ways to take the decisions, all situations, map orders", "why_tests_cant": "a test compares the decisions for one data set; that wrong (halved) utilities never lead to wrong decisions is a statement about all networks and all data", "anchors": ["training.go:UpdateNetwork", "training.go:AddSample", "network.go:SolvePolicies"]}
{"id": "C165", "title": "Two data sets together give the weighted average of each", "statement": "Train a network with one data set, with another, and with both together. If the first data set is enough (UpdateNetwork reports no error), then so are both together. If both are enough, then every probability after training with both together is the average of the probabilities after training with each alone, weighted with the number of samples in which the parents have the outcomes of the row and the outcome of the variable is known. The same is true for utilities, weighted with the number of utility values.", "quantifier": "all networks that can be trained, all pairs of data sets of samples that fit (also with missing values), all tables, rows and columns", "why_tests_cant": "a test has two data sets; that training combines data sets of any size and overlap in this way is a statement about all of them", "anchors": ["training.go:AddSample", "training.go:UpdateNetwork", "training.go:NewTrainer"]}
{"id": "C166", "title": "What a solved network answers depends on the joint probabilities and the total utility only", "statement": "Take two networks as in C161 (same variables, same parents of the decisions, products of the probability tables the same up to a positive factor, total utilities the same up to a positive factor and, if there is a timeline and no zero row, a constant), and solve both with SolvePolicies(true). With the same evidence, and with policies not ignored or only chance variables observed, the probability of the evidence in the factor from SolveQuery without query variables is the same up to the factor of the probabilities, and the total utility from SolveUtility is that of the other network, rescaled and shifted like the total utilities (the constant counts as often as the evidence is probable). If the evidence is possible, SolveQuery gives exactly the same distribution for every chance variable and every decision that is not observed.", "quantifier": "all pairs of well-formed solvable networks over the same variables whose decisions are listed in order and can matter, all evidence, queries of any number of variables, factors, constants, map orders in all calls", "why_tests_cant": "a test compares two networks and some evidence; the equality is for all ways to write down the same problem and for all later questions", "anchors": ["network.go:SolvePolicies", "network.go:SolveQuery", "network.go:SolveUtility"]}
