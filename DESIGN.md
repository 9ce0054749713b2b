# Formal model of Netflix/sureal in Lean 4 — design

## 1. What is modelled and how

`/repo` is read as text; nothing of it is executed. Every definition in `lean/Verif/Model/*` is a
shallow, total Lean function that follows one Python function branch by branch and cites its file and
lines. Property theorems live in `lean/Verif/Props/*`, helper lemmas in `lean/Verif/Lemmas/*`, and the
vocabulary used to *state* properties (means, votes of a video, ...) in `lean/Verif/Spec/*`, which does
not refer to the model's own helpers.

### Numbers
Python floats are modelled by `Fl K` = `nan | pinf | ninf | fin x`, `x : K`, with the IEEE rules for the
special values (NaN propagation, `0/0 = nan`, `x/0 = ±inf`, `0*inf = nan`, every comparison with NaN
false). `K` is a linearly ordered field (theorems: any such field, or `ℝ` where sqrt/log/exp occur;
concrete examples: `ℚ`). **Not modelled**: rounding, overflow/underflow, the sign of zero. So a theorem
about the model says what the program computes up to rounding.

numpy reductions (`nansum`, `nanmean`, `nanstd`, `mean`, `std`, `maximum`) are modelled from their
documented behaviour including their NaN/empty cases. Arrays of shape (E,S,R) are functions
`Fin E → Fin S → Fin R → Fl K`. `np.tile`/broadcasting/transposes become index re-use.

### Python
Exceptions are values (`Except PyErr`). Dicts are insertion-ordered association lists. Options passed as
keyword arguments are three-valued (absent / `None` / `True|False`) because the code distinguishes
`is True`, `is False` and "not given". Randomness is an explicit stream of draws given as an input, and
theorems quantify over all streams. Processes and crashes (parallel_map, caches) are transition systems
and theorems quantify over all executions.

### External functions
`scipy.linalg.pinv`, `scipy.optimize.minimize`, `scipy.stats.norm.cdf`, `chi2.ppf`, JSON/pprint text,
file system and plotting are not modelled; where a result depends on them they are parameters with the
assumed contract stated as an explicit hypothesis (e.g. Moore–Penrose conditions), or the property stops
before them. `scipy.linalg.norm` is modelled with its default `check_finite=True`: it raises on NaN/inf.

### Trusted base
Lean's kernel; the three standard axioms (`propext`, `Classical.choice`, `Quot.sound`) at most — audited
by `#print axioms`; the faithfulness of the hand-written model, which can be checked against the cited
lines; the documented behaviour of numpy/scipy/pandas primitives listed in `Verif/Model/Np.lean`.

## 2. Plan per property

Status words: *prove* = full statement; *refute+partial* = reading the code shows the claim is false in
general; the negation is proved with a concrete witness and the largest true part is proved as `_partial`.

| id | plan |
|----|------|
| C01 | model `_assert_dataset` of both classes; prove iff with a declarative well-formedness predicate |
| C02 | refute+partial: `range(max+1)` admits gaps and duplicates; partial: ids lie in `[0,max]` |
| C03, C04 | model `opinion_score_3darray`; prove entry-by-entry specification |
| C05 | observer list = sorted dedup; prove sortedness, membership, permutation invariance of list and array |
| C06 | multiset equality from C03/C04 |
| C07 | index arithmetic bijection `Fin R × Fin E ≃ Fin (R*E)` |
| C08 | compose reader and MOS model; prove equality with the mean of the vote list of the dataset |
| C09–C12 | lemmas on `nanmean`/`nanstd` of lists under permutation, filtering, affine maps |
| C13 | model `_get_ref_mos` and dscore; prove formula, reference gets `ref_score`, error branch iff |
| C14, C15 | z-score algebra over ℝ (sqrt) |
| C16, C17 | Finset double-sum algebra on complete arrays |
| C18–C20 | decision logic; C20's unanimity clause is refuted (`>=` with sigma 0 counts everybody twice) |
| C21, C22 | refute (equal correlations; NaN correlation) + partial under exact guards |
| C23, C24 | options as data; exhaustive case split; program equality |
| C25 | algebra over ℝ |
| C26–C32 | model the AP loop with fuel = its own iteration cap; invariants and simulations between two runs |
| C33 | model the demo scripts separately, prove program equality with the library solver |
| C34–C36 | model BP loop; step equality, `HasDerivAt`, invariants |
| C37 | pinv as parameter with least-squares contract; unique minimiser |
| C38 | program equality |
| C39 | list algebra |
| C40–C44 | dataset transformations on structures; heap effects are modelled by returning the mutated source |
| C45–C48 | model `to_pc_dataset` as a fold over subjects/pairs with an explicit random stream |
| C49, C50 | fold invariant; C50 refuted when asset ids are not list positions, partial otherwise |
| C51 | refute+partial (list style loses columns because `num_observers` is overridden) |
| C52–C54, C74 | streams as parameters; fold over the selected subjects with a per-column relation |
| C72 | reported statistics unfolded to the votes; dof by cases of the variants |
| C73, C75 | reader equations; round trip through C03 |
| C55–C58 | BT update over ℝ; MM inequality; C58 refuted (`/pp*2`) + partial |
| C59, C60 | gradient/Hessian; symmetry |
| C76 | the gain of a pass bounds its step from above, the likelihood is bounded |
| C77 | second derivatives of log Φ; refute for the normal distribution + partial |
| C61–C64 | transition systems; C64 refuted (crash while writing leaves an unreadable file) + partial |
| C65, C66 | list induction; graph reachability, unique paths under single inheritance; refute for diamonds |
| C78 | case analysis over the model kinds |
| C67 | refute for non-zero locations + partial |
| C68, C79 | Cauchy–Schwarz on lists; counting over unordered pairs; monotone maps keep ranks |
| C69 | `validate`/`format` as folds over nested dictionaries with an effect per key; refute for models of the same TYPE, content-id gaps, `None` statistics |
| C70 | counting in lists |
| C71, C80 | values as trees, `repr` as a map to expressions, `exec` as a fold; refute for NaN, numpy 2 floats, modules already loaded + partial |
| C81–C83 | model the legacy MLE loop; simulation with the MLE_CO loop, derivatives in (the logarithm of) each parameter, relation between runs with and without a silent column |
| C84 | difference quotients of the log-likelihood, which is quadratic in biases and qualities |
| C85 | invert the loop of `_run_modeling` into its trace; each pass is a `Round` of Newton steps on the specified log-likelihood, the initial parameters are a `Start` |
| C86 | normal equations of the fitted line; the logit inverts the logistic curve; the slope has the sign of the covariance |
| C87 | draws are an i.i.d. stream; the number of draws a job uses is a stopping time, so the stream after the earlier jobs has the same law; the law of one job is computed branch by branch |
| C88 | `Bstp.run` calls `Mle.runModelingWith` without centring and centres afterwards; shifting scores and biases oppositely leaves every residual, hence the likelihood, unchanged |
| C89 | `np.random.choice` is a parameter with the contract "n numbers below n"; `np.percentile` is interpolation in the sorted list; the offset of a panel is the shift that aligns it; counting in a sorted list gives the coverage |
| C90 | as C89 with videos; holds when asset ids are positions and every draw keeps every observer, refuted otherwise |
| C91 | model of `str.split`, `csv.reader` and numpy broadcasting on lists of characters; round trip from the text by induction over matrices, rows and cells; refuted for repetition matrices of one row or column, which are repeated silently |
| C92 | THURSTONE_MLE: the matrix is a weighted graph Laplacian (the normal distribution function is log-concave by Mills' inequality), a maximum principle gives invertibility of the bordered matrix and a positive diagonal of the inverse. BT_MLE: refuted on a concrete table, where all standard deviations are NaN |
| C93 | model of the converter on a table of cells, strings as lists of characters, the iteration order of sets as a parameter; exact characterisation of success by induction over the rows, chained with C01 and C08; witnesses against distinct asset ids, repeated rows and fractions |
| C94 | model of the routine without its plots, the classes of reader and models as parameters; statistics related to lists of (vote, reconstruction) by induction over the flattened array and C68; decomposition of the variance into the parts within and between the videos |
| C95 | Mills' inequality with the added constant gives strict concavity of each term for differences of at least -4; tangent inequality summed over all pairs; refutations: a bounded convex function is constant, and a video that never loses can always be raised |
| C96 | the score and the squared standard error are written as functions of the uncorrelated draws; expectation of the mean and of the sum of squared deviations; instance: independent standard normal draws |
| C97 | model of the fraction, the draw (first entries of a random order) and the run with the selected observers; sums over all permutations by symmetry under transpositions; refutations from C51 |
| C98 | model of the readers as functions of the number of the reading, the models one after the other, the dictionary of results; composition of C54, C75, C52 and C70; refutations by draws that depend on the reading |
| C99 | bounds on the ratios along chains of wins make the superlevel sets compact; cluster points of the passes are fixed points by strict ascent (C56), hence the estimate (C57); without Ford's condition weakening a group that never won improves every vector |
| C100 | model of all branches of `inversefunc` with the minimiser as a parameter; the function minimised is shown to be the squared distance inside the domain and infinite outside, hence unimodal; closed interval by the intermediate value theorem; refutations for the square and x/(1+abs x) without a domain |
| C101 | model of the table and of `np.interp` with lists; sums over antidiagonals; induction over the grid; refutation by a coarse grid and by a minimiser that finds the negative root |
| C102 | the loop body as an exact coordinate descent: tangent of the logarithm at the old variances, weighted and plain means as minimisers of sums of squares; summable squared changes by a lower bound of the weights; derivatives of the cost; compactness on complete data |
| C103 | `histc` as a fold over a dictionary with an invariant; `np.histogram` by its documentation (equal bins, the last one closed); telescoping sums of the counts |
| C104 | the matrices and points handed to matplotlib; `histc` by C103, sorting by a total order that agrees with `<=` on numbers; sums of residues from the mean (MOS) and from the last step of the solver (biases) |
| C105 | `chi2.ppf` is a parameter with the contract to return quantiles of the law of a sum of squares of independent standard normal numbers (a Mathlib product measure); this law has no atoms and no mass on the negative numbers; the event that the interval covers is a preimage of the interval between the quantiles |
| C106 | state machine with module objects, `sys.modules` and model objects that hold references; refinement to a machine in which every model object owns its dataset, by a simulation relation and induction over the operations |
| C107 | strings as lists of characters; `split` and `os.path.splitext` by recursion; characterisations by unique decomposition |
| C108 | the matrix handed to matplotlib; from the complementary cells of the array (C49) |
| C109 | strings as lists of characters; injectivity by comparing the two decompositions; the package by C66 |
| C110 | the data handed to matplotlib, loop over the models with its counter; `argsort` a parameter with the contract that it returns a permutation in whose order the values do not decrease, NaN last; induction over the models |
| C111 | the places and colours of the series of C110; arithmetic of the offsets |
| C112 | loop over the reference videos that fills the labels, invariant by induction; result of the models from C27, C51; names of dictionary datasets from C04 |
| C113 | from the equivariance of MOS (C11) and the runs with final transforms (C25): the run with the final map against the run on mapped votes |
| C114 | the same model definitions at a type of numbers whose operations round (`Model/Rounded`), the rounding a parameter with a contract that is proved for double precision; sums as trees of additions, induction over the tree |
| C115 | as C114: lower and upper bounds carried through differences, squares, sum, division and roots |
| C116 | `int(num_subj * subj_fraction)` in rounded arithmetic (`Model/SampleStats` at `Model/Rounded`) |
| C117 | `Model/Main` composes the models of class lookup, reader, subjective models, `run_subjective_models` and `format_output_of_run_subjective_models`; the datasets as `Spec.Readable`, the votes of a video straight from the dataset; composition of C01, C06, C12, C66, C69, C78, C94 |
| C118 | as C117; a sufficient condition under which no step raises (rejection keeps somebody, correlations need two votes, projection needs rated videos), and a dataset on which the program fails |
| C119 | as C117, for all numbers in the output including AIC and BIC |
| C120 | the `gaussian` density with its NaNs, sums without NaN, composed over the arrays; equality with the sum of logarithms of densities under the hypotheses that the deviations are positive, and what is reported otherwise |
| C121 | the votes as random variables on any probability space, the interval as C12 determines it; central limit theorem, strong law for the sample variance and Slutsky from Mathlib, the table value of the normal distribution at 1.95996 by bounds from its series; for normal votes of any number the independence of mean and sample variance and concavity, for two votes the rotation invariance of normal pairs |
| C122 | the draws as random variables, validate as C98 models it, the votes as C54 determines them: for unbiased observers of equal inconsistency the votes on a video are independent and normal, so each video is covered with the probability of C121, which depends on the number of observers only; the percentage is the mean of the indicators |
| C123 | the loop as C27 models it over the real numbers: the number of passes is a function of the votes; adding qualities and biases shifts every pass and leaves its weights and its stopping test alone; negating the noise negates every pass; the estimates are measurable and bounded by a multiple of the sum of the votes, so the expectation exists and equals its negative |
| C124 | the arguments by C65, the lookup among the imported classes by C66, the run by C94; a result as a table in which lists, numbers and numpy arrays are told apart, since `isinstance(v, list)` and `json.dump` do; each entry by computation |
| C125 | each update commutes with the action on votes and parameters, also for infinities and NaN, so the loops run in lockstep; with the method 'simplified' the update of the qualities is compared with that of 'original' (C34); a degree calculus for the change of unit |
| C126 | the run on the negated noise is related to the run on the noise by moving each video by -2q and mirroring the scale (C125); negation is a measurable equivalence, so the measures of corresponding sets agree without a measurability proof for the iteration |
| C127 | the model gets the reader as it is at the first and at the second reading; inversion of the run shows what the second is used for; refutations: a second reading without votes on a video, and a run over the rationals whose score belongs to neither reading |
| C128 | the last pass is a Newton step with damping 1/10 on a quadratic, so what remains is nine times what was moved; the final centring moves both sides alike; refutation for the biases by the example of C129 |
| C129 | start and first round of C85 with the derivatives of the likelihood computed in closed form; the qualities do not move, hence the loop ends |
| C130 | the loop over the models with the five panels, each a call of one function `points`; inversion of a completed run; the converse from the conditions under which no call raises; witnesses over the rationals for the cut-off lists and the negative error bars |
| C131 | `Model/Compare`: the models run one after the other through `get_sample_stats`' sampling, panels as a list per pair of axes; inversion of a completed run; averages over all permutations for the unbiasedness; witnesses for the models left out and the percentage |
| C132 | `Model/Recovered.recovered`: limits and points of the subplots; the minimum and maximum of the means; a mean of groups lies between the smallest and largest group mean; a witness with BR_MOS |
| C133 | `Model/Recovered.imshowSize`, `plotSize`; `x // 100` as a count; two steps of division; a witness with 5999 columns |
| C134 | `Model/RandState`: the validation with the state of the generator handed on from reading to reading; refinement to the streams of `Model/Validate` by a chain of states; the loop of seeds forgets its initial state; with a seed, C75 (`to_dataset`) relates the three readings to the run on the written dataset; witness with a counting generator |
| C135 | `Model/CiScript`: the script with the state of the generator as in `Model/RandState`; true values and refusals by unfolding, the loop over seeds by induction; percentages of the MOS model from C134 and the affine invariance of the criterion; expectation from the coverage of normal panels (C122) |
| C136 | `Model/Ap` (`sStd`, `bStd`, `vStd`): closed forms by rows and columns of the array; second derivatives of the normal log-likelihood in one parameter with the others fixed |
| C137 | `Spec/Panel` (`CopiesOf`), `Model/Ap`: every mean and spread of a video is the same over m copies of its votes, those of an observer are the same; the two loops run in lockstep on arrays of different sizes |
| C138 | `Spec/Panel` (`CopiesOf`), `Model/Mle`: sums along observers are multiplied by m, the quotients of the updates are the same; the two loops run in lockstep on arrays of different sizes |
| C139 | `Model/MainPc`: the program as a relation (the loops need not end), reader, the three models and `Model/Format` chained; `Spec/MainPc`: points of a subject, table of points, what the output should hold. Inversion of the relation, C49/C50 for the table, C69 for the output, C76 for the end of the loop |
| C140 | `Model/JsonOut`: Python's JSON encoder with `indent=4` on the output of `Model/Format`; `Spec/Json`: the grammar of JSON as a relation between values and texts, the numbers of an output. Induction over the tree; a scan of the text outside strings shows that one NaN or infinity spoils it; injectivity of the encoder by unique readability; C119 for MOS |
| C141 | `Model/Written`: the program with results that may hold arrays, `json.dump` piece by piece until a piece raises, the file and the printed text at the end. Refinement: without PERSUBJECT the program is the one of `Model/Main` (naturality of the formatting in the type of the numbers). A text broken off inside a bracket is no JSON. Least squares through C37 and the cells of the array |
| C142 | Two videos whose votes compare cell by cell (both missing, or both numbers with ≤, < or =). Every step of preprocessing keeps this (z-scoring is affine per observer, bias removal subtracts per observer, rejection drops columns, differential scores subtract per content), means keep it, and so does every pass of the solvers, as the weights are the same for both videos and not negative. Induction over the passes of P.910, the maximum likelihood models and the legacy model; the program through C117 |
| C143 | With nothing missing, the mean of the iterated scores stays the mean of all votes in every pass, so the biases are the differences of means from the second pass on. Induction over the passes; the last pass expressed by the spreads of the pass before, which are the reported inconsistencies. With two observers the residuals of the two are opposite, so the weights are equal in every pass |
| C144 | Means of numbers on a scale are on it; rejection drops observers and keeps the rest. Removing biases and taking differential scores shift a vote by at most the width of the scale, so the means leave it by at most this. For P.910 on complete panels by the closed form of C143. Witnesses for models that leave the scale; for P.910 an invariant over the passes of the solver (the two agreeing observers always weigh more) |
| C145 | The model of json.dump of C141, mutual induction over the document: strings are escaped, numbers are written in digits, the rest is fixed text |
| C146 | Model of MyTestCase and of the parts of unittest.TestCase it overrides, with exact arithmetic and rounding to even; induction over the steps of a test |
| C147 | Biases of agreeing observers are zero and rejection drops observers only, so means of what is left are the common votes. For P.910 an invariant over the passes of the solver with missing votes. For the models by belief propagation: spreads of zero or NaN at the start, carried through one pass of each update rule and each mode to the norm, which refuses NaN |
| C148 | Strong law of large numbers. For the P.910 solver every pass on a complete panel is written as what it makes of the noise (qualities and biases cancel); the weights are Lipschitz in the scores of the pass before, so by induction over the passes, of which there are at most 1000, the deviations go to zero where the averages of the noise do. Biases by the closed form of C143. Witness against skewed noise: an invariant over the passes for any number of observers |
| C149 | Every pass is one number, the share of the erratic observer in the scores; it stays below one third and falls by a factor of 3/8 per pass down to what the constant 1e-8 in the weights leaves. Both ways in which the loop can end (small change, 1000 passes) bound the share times the spread of the votes of this observer |
| C150 | The program of C117 with the drawing between the models and the output, the figures as the data handed to matplotlib, the output directory as a map from names to files. Induction over the figures for the files; the success of the plots from C104, C110 and an induction over the models for the plot of the observers. Witnesses: nine models, a directory with an old picture |
| C151 | The program of C117 on datasets whose keys are pairs of a subject and an asset id. The outcomes of a video are its own records and the complements of the records of other videos about it. With both videos recorded, the mean of the votes is the mean of the outcomes; with the winner recorded only, all votes are 1 and C147 gives the scores |
| C152 | `Model/MainPcPlots`: the relation of C139 with the plots of C150. The figures by the lemmas of C110 and C111; the picture of the raw data is the mean over the third axis of the array, which is expressed by the records with C50 |
| C153 | `Spec/BtConsistent`: random tables with expected wins `w i j * p i / (p i + p j)`. Strong law for the average table; a stability lemma: at the video whose estimated strength is largest relative to the true one the likelihood equation forces the relative errors of its neighbours to vanish, and so on along the chains of the design (a filter for each video that can be the largest); convergence of the passes by C99. Refutation: the slow table of C99 as a design, by continuity of one pass in the table |
| C154 | `Model/Persist`: one call of `new_func` from start to end, the function differs from call to call (files of the datasets, state of the generator). Induction over the series of calls: the file of a key is what the first call with a value wrote. Refutations by evaluation in ℚ of MOS on a dataset before and after a correction, and with two draws |
| C155 | `Model/Argv`: the parser of lines 16-43 by the algorithm of `argparse`, then `Model/MainPlots`. `Spec/Argv`: a grammar of command lines. Both directions by induction: spelled pieces are consumed, what is consumed without extras is spelled; the classification of words is decided by how many option names begin with them. The program from C150 |
| C156 | `Spec/Recast`: the same votes in another order and on other scales. The screening rule of `Spec/Bt500` (C18): mean, variance and fourth moment under affine maps, the counts P and Q kept or exchanged, the sets of cells permuted; the bias of P913 commutes with it. A second screening: a panel of six on two videos, computed exactly |
| C157 | The screening rule of C18 on a panel with one dissenter (`Spec/Dissent`): mean, variance and kurtosis in closed form, so the factor is 2 for 4 and 5 observers and the square root of 20 otherwise; the dissenter is `√(S-1)` standard deviations off. In general by the inequality of Samuelson: no vote is farther than `√(n-1)` standard deviations from the mean |
| C158 | The rule of C22 on a panel with one reversed observer (`Spec/Reversed`): the panel's opinion is `((S-1-b) q + a)/S`, so all correlations, of votes or of ranks, are 1 or -1; mean and standard deviation of the agreements in closed form give the threshold |
| C159 | The passes of P.910 on a complete panel as what they make of the noise (`Lemmas/Consistent`, C149). With two camps (`Spec/Camps`) the noise of one camp is `d`, so the scores are `q + y d` with one number `y`, the share of the camp; the ratio `y/(1-y)` shrinks by the square of the ratio of sizes in every pass, up to a term from the constant 1e-8 in the weights; the stopping test then bounds what is left |
| C160 | The two screenings (C21, C22) on a complete panel: removing biases shifts each observer's votes and leaves the panel's means, because the biases sum to zero; correlations and ranks do not see shifts, so the agreements, the threshold and the rejections are the same. With missing votes the means move, with BT.500 the thresholds do: counterexamples. The bias is estimated from all observers: a counterexample for the influence of the rejected With repeated votes only the mean of an observer's votes on a video counts in the agreements, biases and scores (`Lemmas/UnbiasedRepeated`). |
| C161 | As C158 with a set of reversed observers: all agreements are 1 or -1, the camp with -1 is the one the panel's means turn against (`Spec/OpposedCamps`, `outvoted`); mean minus standard deviation of such agreements is at least -1 exactly if at most half of them are -1. Counterexample where the smaller camp outweighs the larger one |
| C162 | The parser of C155 (`Spec/Argv`) in front of the program of C152 (`Model/ArgvPc`, a relation because the loops need not end): one effect for each command line, what is written for spelled command lines, nothing touched otherwise |
| C163 | `Spec/Raised`: a dataset with one vote replaced. Means of lists in which one number is raised; after bias removal the gain is computed from the numbers of votes of each observer, with missing and repeated votes; the z-score of a number is u / sqrt(u^2 + A) in its distance u from the others, which grows. Counterexamples for repeated votes with z-scores and for the correlation rules |
| C164 | `Model/Paths`: os.path.join, os.path.dirname and the functions of config.py on strings. `Spec/Paths`: where a path leads, on any file system. Induction on the components: joining is following one path after the other. Lists of names for directories without links; the digits before the first dot give the figure number |
| C165 | `withVote` of C163 on a cell that was empty: the list of votes gets one number more. The sum of the squared deviations grows by n/(n+1) times the squared distance of the vote from the mean; comparison of the standard errors before and after. Counterexample with a distant vote |
| C166 | `Spec/AddedWin`: the table with additional wins. The scores of both models solve balance equations with a decreasing function of the score differences (`Lemmas/AddedWin`); where the change of the scores is largest, the equation forces the neighbours to change as much, so that by connectedness it is largest at the winner. Limits of the passes by C99, stationary scores by C95. For the Newton-Raphson variant (`Props/AddedWinNr`) the balances at the reported scores are bounded by C59, and balances are monotone in the scores |
| C167 | `Spec/AddedTie`: the table with additional ties. In the balance equations of C166 a tie acts like a fraction of a win of whoever is behind with the ties (`Lemmas/AddedTie`), so C166 gives the direction of the change in each of the three cases, and two of them contradict the order before |
| C168 | `Spec/TwoPanels`: the observers of two panels in one array. The cells of a video are those of the panels one after the other, so sums and numbers of votes add up. The order holds for equally many votes within each panel; counterexample otherwise. For paired comparisons the tables of wins add up; order of two videos by their wins, a counterexample with three videos by the likelihood equations |
| C169 | `together a a` of `Spec/TwoPanels`: the list of votes on a video is appended to itself, so the mean stays and the squared deviations double. For comparisons, one step of the iteration does not depend on a common factor of the table; induction on the run of the loop |

## 3. Which code is modelled

Line numbers refer to `/repo`. "—" in the last column means nothing of that range is modelled.

| file, lines | model | left out or simplified |
|---|---|---|
| `sureal/dataset_reader.py` 17-143 | `Model/Dataset` | ids are ints, required keys are present, unknown keys are opaque |
| 87-111 `write_out_dataset` | `Model/Write` | text is the expression Python parses it as; layout not represented |
| 145-235 array, observers | `Model/Dataset` | an ndarray vote must have one element |
| 237-342 aggregated, per-subject | `Model/Convert` | vote objects are not shared inside one dataset |
| 344-526 `to_pc_dataset` | `Model/Pc` | compared scores are numbers; settings are numbers or lists of numbers; fuel for the `while` loop |
| 528-615 overlap, dictionary style | `Model/Convert` | the two datasets are different objects |
| 618-992 mocked readers | `Model/Mock` | one access to the array; a seed only selects the stream of draws |
| 995-1063 paired-comparison reader | `Model/PcReader` | values are not ndarrays |
| `sureal/subjective_model.py` 41-314 | `Model/Life`, `Model/Mos`, `Model/Preproc` | dataset files are sequences of assignments |
| 316-481 MOS, DMOS, LIVE | `Model/Mos` | |
| 484-533 least squares | `Model/Ls` | `pinv` is a parameter |
| 536-661 legacy MLE | `Model/Legacy` | progress message |
| 664-1178 MLE | `Model/Mle`, `Model/ObsCi` | progress message; `chi2.ppf` is a parameter |
| 1181-1445 wrappers | `Model/Mos`, `Model/Mle` | |
| 1448-1649 alternating projection | `Model/Ap`, `Model/ObsCi` | progress message |
| `sureal/experimental.py` 9-155 bootstrapping | `Model/Bstp` | `np.random.choice` is a parameter |
| `sureal/pc_subjective_model.py` | `Model/Bt` | `pinv`, `minimize`, `norm` are parameters; loops without bound are relations |
| `sureal/perf_metric.py` | `Model/Perf` | `lstsq` is a parameter |
| `sureal/routine.py` 609-732, 971-980 | `Model/Format`, `Model/Ci` | |
| `sureal/tools/misc.py` 36-77 | `Model/FileName` | |
| `sureal/tools/misc.py` 26-33, 80-92, 109-231, 249-283 | `Model/Dataset`, `Preproc`, `Write`, `Lookup`, `ParMap`, `Weighted`, `TestCase` | sleeping |
| `sureal/tools/stats.py` 16-21, 78-122 | `Model/Mos`, `Model/Mle` | logistic convolution: only that it raises |
| `sureal/tools/decorator.py` 39-60, 82-114 | `Model/Memo` | `persist_to_file` (12-36) always raises TypeError |
| `sureal/core/mixin.py` 9-46 | `Model/TypeVersion` | |
| `sureal/core/mixin.py` 48-73 | `Model/Lookup` | |
| `sureal/__main__.py` 16-112 | `Model/Argv` the arguments (`argparse` as in CPython 3.11; negative numbers and text attached to `-h` as parameters) and the whole program; `Model/Main` with `Model/Lookup`, `Model/ModelClasses`; `Model/MainPc` for paired comparisons; `Model/JsonOut` the text of the output (order of the four sections fixed); `Model/Written` the end of the program, with least squares and PERSUBJECT | failures of matplotlib and the file system |
| `itur_bt500_demo`, `itut_p910_demo`, `itut_p913_demo` | `Model/Demo`, `Model/Csv` | command line, progress message, quotation marks in CSV files; reading a number is a parameter |
| `resource/util/mos_to_sureal.py` | `Model/MosTable` | `pd.read_csv`, infinite numbers, Unicode digits and white space, command line |
| `sureal/routine.py` 32-105, 606-608 | `Model/RunModels` | plots; options of the plots |
| `sureal/routine.py` 983-1067 `get_sample_stats` | `Model/SampleStats` | plots |
| `sureal/routine.py` 754-838, 968 `validate_with_synthetic_dataset` | `Model/Validate` | run times; a model is given the reader as it is at each of its readings of the votes (`Model/Readings` for the maximum likelihood models).  `Model/RandState` has the state of the generator instead, without `seed=None` |
| `sureal/routine.py` 1159-1161 | `Model/Persist` | the cached variant of `_get_sample_stats_wrapper`, one process at a time |
| `sureal/routine.py` 192-213, 223-240 | — | labels of axes, printed reports |
| `sureal/routine.py` 241-274, 590-606 | `Model/Recovered` | points and limits of the axes, sizes; no labels |
| `sureal/routine.py` 1070-1156 `plot_scatter_target_vs_compared_models` | `Model/Compare` | points, numbers in the titles, names and percentages on the axes |
| `sureal/tools/inverse.py` | `Model/Inverse` | `minimize_scalar` is a parameter; warnings and `accuracy` are left out |
| `sureal/tools/stats.py` 180-202 `get_cdf`, `get_pdf`, `histc` | `Model/Hist` | `np.histogram` by its documentation, edges without rounding |
| `sureal/routine.py` 816-966 plots of `validate_with_synthetic_dataset` | `Model/ValidatePlots` | points, error bars, colours, markers, numbers in the labels, ends of the gray line; whether matplotlib refuses negative error bars is a parameter |
| `sureal/routine.py` 735-752 `visualize_pc_dataset` | `Model/WinRate` | the matrix handed to matplotlib |
| `sureal/routine.py` 275-587 | `Model/ScorePlots` | the points, error bars, colours and labels handed to matplotlib for scores, biases and contents; `argsort` a parameter |
| `sureal/routine.py` 107-191, 214-222, 241-255 | `Model/Plots` | the data handed to matplotlib; no axes, labels, colours |
| `sureal/tools/stats.py` 126-178 | `Model/ConvolvePdf` | exact convolution instead of the FFT; densities with finite values |
| floating-point rounding of `subjective_model.py` 376-391 and `routine.py` 1040 | `Model/Rounded` | without underflow and overflow |
| `sureal/cmd_deprecated.py` 15-80 | `Model/Deprecated` | the text on the screen, the drawing of the plots, the order and layout of the JSON; `other` for least squares and PERSUBJECT |
| `sureal/__main__.py` 32-108 with plots, `sureal/config.py` 34-46 | `Model/MainPlots`; `Model/MainPcPlots` for paired comparisons | the figures are the data handed to matplotlib, the directory a map from names to files; `plt.show()` without a directory is not modelled |
| `sureal/config.py` 6-43 (paths), `sureal/tools/decorator.py` 48 | `Model/Paths` | os.path of POSIX systems; os.path.realpath is the parameter `file`; the operating system, links included, is the parameter `Places` of the specification |
| `resource/script/run_synthetic_validate_ci.py` | `Model/CiScript` | the plots, the printed text; integer seeds; `observer_bias` as a numpy array of floats |
| the rest of `resource/`, `test/` | — | data, scripts and tests |

What every theorem leaves out: overflow and the sign of zero; except in C114-C116, floating-point rounding; memory and time; warnings; text printed
to the terminal.

## 4. Where the code and the expectation differ

Each of these is a theorem with a concrete witness on the model; the part that holds is proved next to it (suffix `_partial`).

| id | what the code does |
|---|---|
| C02 | accepts content ids with gaps and repeated ids (`range(max + 1)`) |
| C20 | BT.500 rejection: with identical votes everyone counts as both high and low (`>=` with spread 0) |
| C21, C22 | correlation rejection: equal correlations, or one undefined correlation, remove everybody |
| C26, C36 | an observer without votes makes all scores or biases NaN |
| C37 | least squares: one missing vote makes every number NaN |
| C41 | per-subject datasets: repetitions in dictionary style raise TypeError (`C41_persubject_repetitions`) |
| C43, C44 | combining datasets appends to lists of the first dataset, sometimes to one list twice |
| C46 | converting a list-style dataset to paired comparisons changes the source |
| C47 | an infinite sampling rate never ends |
| C48 | per-asset sampling, coin-toss and noise settings are looked up by position among the assets the subject rated |
| C50 | the paired-comparison array has rows by list position and columns by asset id |
| C51 | `SelectSubject` on list-style data: columns beyond the number of selected subjects become NaN |
| C53 | flipping a subject's scores twice is not the identity |
| C54 | synthetic readers index content parameters by content id, so a gap in the ids raises IndexError |
| C55 | Bradley-Terry: a video that never wins gives 0/0 and a ValueError |
| C58 | Bradley-Terry covariance: off-diagonal entries use 2n/(p_i+p_j) |
| C59 | BT_NR: a self-comparison overwrites a diagonal entry of the Hessian with a positive number (`C59_selfComparison`) |
| C61 | a limit of at most 0 lets `parallel_map` wait forever |
| C63 | `memoized`: equal keys such as 1 and True share an entry; unhashable arguments raise |
| C64 | `persist_to_dir`: a crash leaves an unreadable file; two processes race for the directory |
| C66 | class lookup fails with diamonds |
| C67 | convolution of two uniforms uses `x` instead of `z` on the slopes |
| C69 | two models of the same type overwrite each other in the output |
| C71, C80 | written datasets with NaN, numpy floats or modules cannot be imported; imports reuse modules of the same name |
| C72 | degrees of freedom count 2SR instead of 2S with repetitions |
| C75 | exporting an array with several repetitions writes a dataset whose own array raises ValueError |
| C77 | Thurstone: second derivatives off the diagonal are wrong unless the curvature is symmetric |
| C90 | the bootstrap over videos draws asset ids but reads the scores by position: ids in another order shift the intervals of the biases, ids other than 0..n-1 raise KeyError, draws rated by different numbers of observers raise ValueError |
| C91 | a repetition matrix with a single row (or column) next to a larger first matrix is not refused: numpy repeats it over all videos (subjects) |
| C92 | BT_MLE reports NaN for all standard deviations on three equally good videos of which two are compared 64 times and each twice with the third (a consequence of the matrix of C58) |
| C93 | `mos_to_sureal.py`: videos of different sources get the same asset id, a second row about a video is dropped, ratings lose their fraction |
| C95 | `neg_log_likelihood_function` adds `1e-8 / M` to the probabilities, so the function that is minimised is bounded and not convex; for a video that never loses no optimum exists, whatever is reported |
| C97 | for datasets in list style `get_sample_stats` with a fraction ends with ValueError if none of the `k` drawn observers is among the first `k`; for datasets in dictionary style the names of all observers are reported together with the biases of the drawn ones |
| C98 | the synthetic readers draw new noise whenever the array is read: without a seed `validate_with_synthetic_dataset` runs every model on different votes and writes yet other votes to the output file; `SyntheticLogisticRawDatasetReader` ignores `seed` altogether |
| C99 | the rule of BT_MLE to stop when a pass moves the vector by at most 10^-8 says nothing about the distance to the estimate: for a table of 4 videos the model stops after the first pass with weight 1/4 for a video whose estimate is 3/8 |
| C100 | `inversefunc` without a domain accepts functions that are not monotone (the square) and returns an inverse for values that the function never takes; `ConvolveTwoPdf` depends on this with even densities |
| C101 | `ConvolveTwoPdf` raises AssertionError if the minimisation finds the negative one of the two places where an even density has the truncation value; the table is not symmetric for even densities, since the last cell is filled with the last value |
| C102 | the solver can stop at a stationary point that is not the best fit: with two observers of opposite opinion on two videos it reports equal scores, while the scores of either observer have a larger likelihood |
| C103 | `get_cdf` does not count the data that lie on the edge it reports (except the last): of 0, 1, 2 with two bins it gives 1/3 at the edge 1, where two thirds of the data are at most 1; without data it returns NaNs instead of failing |
| C104 | with repetitions the residues of MOS shown for a video need not add up to 0, because the plot averages over the repetitions first: votes 1, 1 and 4 give the residues -1 and 2 |
| C105 | the interval of an observer's inconsistency is exact for deviations from known scores; the code applies it to the standard deviation of residues, with the same degrees of freedom: for an observer with one vote the projection solver reports inconsistency 0 with the interval from 0 to 0, and with known scores and biases the interval lies below the truth with probability at least 2.5% already |
| C106 | `import_python_file` executes a file in the module object of the same name if one is loaded: loading a file again (or one of the same name in another directory) changes the dataset of the model objects made before, undoes their restriction to ids, and keeps attributes of the earlier file |
| C107 | `get_file_name_extension` of a name without a dot is not empty: it is the whole path, or the end of the path from the last dot in a directory (`a.b/c` gives `b/c`) |
| C109 | type and version with `_V` inside give the same string (`A`, `1_V2` and `A_V1`, `2`); a version may end in a line feed |
| C110 | with the option to sort, the scores are put in order and the confidence intervals are not: the error bar at a point is that of another video |
| C111 | offset 0.4 per model in slots of width 1, plus a list of 4 colours twice: the third model is drawn on the border to the next video, the points of the fourth and further models for the last video beyond the axis; the fifth model has the colour of the first, the sixth is drawn where the first shows the video two places later; more than eight models give an IndexError |
| C112 | content ids need not differ: the last name is shown for all; for a selection of observers the names are those of all observers, and the plot of the biases fails with an AssertionError; a content without `content_name` makes the plot of the ambiguities raise KeyError although the reader accepts it |
| C113 | `transform_final` and `normalize_final` map the scores only: the standard errors and intervals stay in the old unit, and this pair is plotted and written to files |
| C114 | votes that are not whole: the score of three votes of 0.1 is greater than 0.1 in double precision, and the score of 0.1, 0.2, 0.3 depends on the order (`C114_refuted_range`, `C114_refuted_order`); C09 and C10 hold for exact arithmetic and for whole votes |
| C116 | `int(num_subj * subj_fraction)` cuts off the rounded product: 0.29 of 100 observers are 28, and 1/49 of 49 observers is none |
| C118 | one vote makes the program fail with ValueError: `run_subjective_models` computes the correlation of votes and reconstructions, which needs two of them; nothing is written although the mean is known |
| C119 | for a video with one vote the program writes NaN into the JSON output, which JSON does not allow (`C119_refuted`) |
| C120 | MOS: videos with a single vote or with equal votes add nothing to the sum of the logarithms, but their votes are counted in the divisor (and their parameters in AIC and BIC); projection: an observer with inconsistency 0 makes log-likelihood, AIC and BIC NaN, as for every perfect fit |
| C121 | the half width uses the normal quantile 1.95996 for any number of votes, not the quantile of Student's distribution: of normal votes the interval covers the expected vote with a probability below 95% whatever their number (`C121_coverage_refuted`), of two with at most 3/4 (`C121_two_votes`) |
| C122 | the percentage of covered qualities is below 95 on average for any number of unbiased observers (`C122_expected_refuted`), since the intervals are too narrow (C121); biases alone make it 100 or 0 (`C122_refuted_biases`), since a common bias shifts the scores and different biases widen the intervals |
| C123 | if votes are missing and the biases differ the scores are biased even without noise (`C123_refuted`): two videos of the same quality never get the same score, since the loop stops before its limit |
| C124 | raw scores and reconstructions are always written as `'<not serializable>'` (`C124_lost`); so are the scores of LIVE_DMOS, which are not printed either, and the biases P910 returns are not plotted (`C124_refuted`) |
| C127 | the maximum likelihood models read the votes twice (once for the starting point): with an unseeded synthetic reader the start belongs to other votes, which shows in the reported scores, and with missing votes the run can raise `ValueError` although the votes fitted have none of these problems |
| C130 | the plots of the validation cut off the longer of the lists of true and estimated biases, inconsistencies and ambiguities without notice, and the root mean squared difference in the label is that of the rest; with error bars, a negative half width makes the run fail (matplotlib 3.4 or later), so nothing is returned |
| C131 | `plot_scatter_target_vs_compared_models` runs all models and pairs them by `zip`, so of the longer list the last models are run and shown nowhere; the fraction on the axes is cut to whole percents, which prints 0.29 as 28% |
| C132 | the axes of `quality_scores_vs_raw_scores` end at the largest mean vote; models that correct for the observers (BR_MOS and others) can report a higher score, and the point is then cut off |
| C133 | `_get_imshow_width_and_height` divides by `w // 100`, which leaves anything below 200: 5999 columns give a width of almost 202, 6000 columns give 102 |
| C124 | with SR_MOS_PCC, SR_MOS_SRCC, BR_SR_MOS_PCC and BR_SR_MOS_SRCC the flags of the rejected observers are numpy arrays: they are not printed, and the file holds '<not serializable>' |
| C134 | the bootstrapping models estimate from two readings of the votes and take the intervals from a third one (`to_dataset`, experimental.py:32): without a seed in the input the interval belongs to other votes than the estimate.  They call `np.random.seed(ibootstrap)` and do not restore the generator, so every model after them gets the same votes whatever the user's seed was |
| C135 | `run_synthetic_validate_ci.py` expects 95% coverage, but the expected average for the MOS model is below 95.  The returned `synthetic_result` with the same seed does not repeat the run: lines 46 and 73-80 seed the generator before the true values are drawn, and the votes are drawn after them |
| C139 | `--models BT_NR` always fails: the model returns `'quality_scores_std': None`, and `format_output_of_run_subjective_models` asks for its length (TypeError), also when other models are named beside it |
| C139 | a dataset of paired comparisons in a JSON file with at least one record is never read: keys must be tuples (subject, asset id), JSON keys are strings (AssertionError, or IndexError for keys shorter than two characters) |
| C140 | `json.dump` is called with `allow_nan=True`: one score, standard deviation, interval, AIC or BIC that is NaN or infinite (a video with one vote under MOS is enough) makes the output no JSON, for the whole file |
| C141 | With PERSUBJECT the program cannot end well: its scores are arrays, `json.dump` raises TypeError after the beginning of the output has been written, so that an earlier output.json is replaced by a fragment that is not JSON |
| C141 | With LS one missing vote makes every score NaN, without a word, and the file is no JSON |
| C142 | If an observer rated one of two videos only, MOS can reverse what every observer who rated both said; differential scores reverse a unanimous order of videos of different contents. Proved for videos rated by the same observers, and of the same content where the model looks at contents |
| C144 | Bias removal on votes from 1 to 5 with a missing vote gives a score of 6, differential scores give 6.5, and P.910 on a complete panel of three observers writes a score above 5 for a video which all gave 5. Proved: MOS and the models with observer rejection only stay on the scale, the models that shift votes, and P.910 on complete panels, leave it by at most its width |
| C147 | When all observers agree about every video, MLE, MLE_CO and MLE_SO fail with ValueError (zero divided by zero, then `scipy.linalg.norm` on NaN), and with one of them in the list of models the program writes nothing, also not the scores of the other models. MLE_CO fails on any complete noise-free votes of the form quality plus bias, which P.910 recovers (C28). Proved: models of means report the common vote, P.910 reports it with biases and inconsistencies of zero |
| C148 | P.910 is not consistent for noise that has mean zero but is skewed: of any number of observers a third votes 5 and 1, the others 2 and 4; both videos have mean 3, P.910 puts them below 2.5 and above 3.5. Of two observers it reports equal inconsistencies whatever they vote. Proved: mean opinion scores and their intervals, P.910 scores for symmetric noise, P.910 biases |
| C150 | With nine models and `--plot-dis-videos` the program ends with IndexError before it writes the output, which it writes without the option. Pictures of an earlier run with more plots stay beside the new output. Proved: whenever the program ends well the output is that without plots and all figures are saved; it ends well for up to eight documented models with two votes by every observer |
| C151 | When a comparison is recorded with its winner only (the way of `test/resource/lukas_pc_dataset.py`), MOS and P910 give every video that won a comparison the score 1, whatever else happened, and the program ends well; the project's own test of the command line does this. With a video that won nothing the program fails for P910. Proved: the share of comparisons won, when every comparison is recorded with both videos |
| C152 | The picture of the raw data is drawn as if the second axis of the array were the subjects; with paired comparisons it is videos, so that the picture has a row per video, labelled as subjects, and shows the share of the points of one video against another. The picture of the observers is empty. Nine models with `--plot-dis-videos` give IndexError. Proved: the output is unchanged, what the pictures show, for up to eight models |
| C153 | With unlimited data the reported vector of BT_MLE need not approach the true strengths, because of the fixed threshold for the last pass (`C153_reported_refuted`: two of four videos three times as strong, reported as practically equal for any large number of observers). Proved: consistency of the estimate and of the limit of the passes, and of the reported vector for two videos |
| C154 | The cached wrapper goes on returning the results of a dataset file after the file was edited (`C154_stale_refuted`), repeats the first random draw of observers when no seed is given (`C154_frozen_refuted`), and a result that is not serialisable breaks the cache for good (`C154_unserialisable`). Proved: what it returns in general (`C154_first`), and that it is the wrapper when neither happens |
| C155 | Given twice, `--models` (as `--dataset`, `--output-dir`) counts only the last time: `--models MOS --models P910` runs P910 only, without a message (`C155_last_refuted`). Proved: exactly which command lines are taken and with what meaning (`C155_taken`), the program on them (`C155_program_partial`) |
| C156 | Screening is not stable: of votes (3,3,3,3,2,5) and (3,3,3,3,4,1) the sixth observer is rejected; screening the other five again rejects the fifth and moves the scores from 2.8 and 3.2 to 3 (`C156_again_refuted`). The code screens once; results depend on whether a panel has been screened before. Proved: independence of order, unit, zero and direction (`C156_bt500_partial`, `C156_p913_recast`) |
| C157 | In a panel of 6 to 20 observers who otherwise agree, an observer off by any amount is not rejected by BT.500, and moves the scores without bound (`C157_kept_refuted`); the rule needs 21 votes for an outlier of `√20` standard deviations. Proved: rejection exactly for 5 or at least 21 observers (`C157_dissenter_partial`), nobody rejected with few votes (`C157_few_votes`) or with outliers on one side (`C157_one_sided`) |
| C158 | A reversed observer who uses more of the scale than the others together (`b > S - 1`) makes the panel's opinion follow them: nobody is rejected and the scores have the reverse order (`C158_loud_refuted`, votes from 1 to 5). With `b = S - 1` all scores are NaN and nobody is flagged (`C158_cancelled_refuted`). Proved for `b < S - 1` and `b > S - 1`: `C158_reversed_partial` |
| C160 | BR_SR_MOS and its variants estimate the biases before the screening and do not estimate them again (subjective_model.py 206-220 before 222-306), so the votes of a rejected observer shift all scores (`C160_rejected_count_refuted`: 1/4 of a point per point). With missing votes the correlation rules reject different observers with and without bias removal (`C160_missing_refuted`), and so does the rule of BT.500 even without missing votes (`C160_bt500_refuted`) |
| C161 | A smaller camp that uses more of the scale and so outweighs the larger one is not rejected: nobody is, and the scores follow the smaller camp (`C161_smaller_refuted`). Of two halves the one that uses less of the scale is rejected entirely (`C161_halves`) |
| C162 | With `BT_NR` among the models, or with a comparison in a dataset that is a JSON file, the program ends with code 1 and writes nothing, from every command line that names them last (`C162_newton_refuted`, `C162_json_refuted`) |
| C163 | With z-scores a higher one of two votes of an observer on a video can lower its score, because it also makes the observer's spread larger (`C163_repeated_refuted`). With the correlation rules a higher vote can make its observer be rejected, and the score falls from 3/2 to 1 (`C163_screening_refuted`) |
| C164 | A component that begins with a separator, or that goes up with `..`, leads out of the workspace and out of the package (`C164_outside_refuted`). Such components are not used in the package |
| C165 | The interval becomes narrower exactly if the vote is less than sqrt(2(n+1)/n) ambiguities away from the score (`C165_interval_partial`); a third vote of 10 after 1 and 3 makes it wider (`C165_far_refuted`). This is a property of standard errors rather than a defect |
| C166 | Not proved for the vector that the Bradley-Terry model reports for more than two videos, because it may stop far from the limit of its passes (`C99_refuted_accuracy`) |
| C167 | Not proved for the vector that the Bradley-Terry model reports for more than two videos, because it may stop far from the limit of its passes (`C99_refuted_accuracy`) |
| C168 | Panels that agree on an order can disagree with it when taken together: mean opinion scores with missing votes (`C168_missing_refuted`) and Bradley-Terry strengths of three videos (`C168_three_refuted`), since the numbers of votes weight the panels differently for different videos |
| C128, C129 | the stopping test of the maximum likelihood models looks at the qualities only: for votes that are exactly quality plus bias the loop ends after one pass and reports one tenth of each observer's deviation from the mean bias |

Seen while reading, part of the models but not the subject of a property: in the conversion to paired comparisons a NaN score
counts as a tie and a sampling rate above 1 rewrites the same key; `to_persubject_dataset` truncates silently (`zip`);
`vectorized_convolution_of_two_logistics` always raises TypeError (`len` of a `zip`); `persist_to_file` always raises TypeError
(`sha1` of a `str`); `subject_rejection=None` with a type is accepted and does nothing; `normalize_final=None` normalises;
a dataset mixing lists and dictionaries is accepted but its array raises KeyError; the mocked random readers draw again at each
access; the uniform density gives `-inf` for missing votes; MLE starts from the mean opinion scores of the unprocessed votes even
when preprocessing is on.

## 5. Axioms

`#print axioms` for every theorem named in MANIFEST.json. No theorem uses an axiom other than `propext`, `Classical.choice`,
`Quot.sound`; there is no `sorry`, `native_decide`, `bv_decide` or own axiom.

| axioms | theorems |
|---|---|
| none | `C63_refuted_equal`, `C63_refuted_unhashable`, `C64_race_directory` |
| propext | `C64_refuted`, `C64_no_recovery`, `C64_race`, `C66_package`, `C66_package_single`, `C80_attributes_partial`, `C80_kept`, `C112_refuted_unnamed`, `C154_first`, `C154_unserialisable` |
| propext, Quot.sound | `C02_duplicate_ids_refuted`, `mos_ignores`, `bias_ignores`, `live_ignores`, `ap_ignores`, `mle_ignores`, `C40_import_filter`, `C54_wrong_sizes`, `C54_content_id_gap`, `C63_transparent_partial`, `C63_exceptions`, `C64_truncated_number`, `C66_sound`, `C66_raises`, `C66_program`, `C74_no_reference_score`, `C88_estimates`, `C88_options`, `C90_refuted_observer`, `C91_bad_cell`, `C91_p910_read`, `C98_probability`, `C98_logistic_seed`, `C103_errors`, `C103_empty`, `C107_name`, `C107_base`, `C107_extension_partial`, `C107_parts`, `C107_refuted_directory`, `C107_refuted_none`, `C109_unique_partial`, `C109_check`, `C110_runs`, `C110_short`, `C112_refuted_ids`, `C127_first_votes`, `C131_datasets`, `C131_trimmed`, `C134_successive`, `C154_stale` |
| propext, Classical.choice, Quot.sound | all the others (579) |

## 6. Mutation tests

`seeded/LOG.jsonl` records wrong programs: each line is an edit of one definition of a model in a scratch copy, the claim it
breaks, the declarations that no longer compile, and the theorems that were tightened because of it.

How to read it (729 records):

- In 352 records a declaration of a file in `Props` (a theorem, a helper of it or an example) no longer compiles.
- In 344 records only declarations elsewhere, mostly in `Lemmas`, no longer compile. A build stops at a module that fails, so the
  theorems that import it were not tried on the edited model. Such a record shows that the proof breaks, which is weaker than
  showing that the theorem is false of the edited model.
- In 33 records nothing failed. Either theorems were then tightened or added (`tightened`), or the `note` or the `claim` says why the
  edit breaks no claim. These reasons are arguments, not proofs.
- Except for the edits after which nothing failed, it was not examined separately whether a proof broke only because of its
  form.
- Edits that did not compile themselves were left out.
