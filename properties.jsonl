{"id": "C01", "title": "Constructing a raw dataset reader accepts exactly the well-formed datasets", "statement": "RawDatasetReader(dataset) succeeds if and only if there is at least one reference video and one distorted video, every reference content_id is a non-negative integer, every distorted video's content_id occurs among the reference content_ids, every distorted video carries 'os' as a list, tuple or dict, and, when the first video's 'os' is a sequence, every video has that many entries. Otherwise construction raises.", "quantifier": "all datasets (any number of reference and distorted videos, any ids, any mixture of 'os' styles)", "why_tests_cant": "acceptance is a statement about every dataset, including mixtures of styles and id gaps that nobody wrote down as a fixture", "anchors": [{"file": "sureal/dataset_reader.py", "symbols": ["DatasetReader._assert_dataset", "RawDatasetReader._assert_dataset"]}]}
{"id": "C02", "title": "Reference content ids are contiguous once a dataset is accepted", "statement": "After a reader has accepted a dataset the reference content ids are exactly 0..n-1 with no gap and no duplicate (the source comment promises 'content id is from 0 to the total_content - 1').", "quantifier": "all accepted datasets", "why_tests_cant": "needs a search over all id assignments; the fixtures all use contiguous ids", "anchors": [{"file": "sureal/dataset_reader.py", "symbols": ["DatasetReader._assert_dataset"]}]}
{"id": "C03", "title": "The opinion score array contains every vote in the right cell and NaN everywhere else", "statement": "For a list- or tuple-style dataset cell (video e, observer s, repetition r) of opinion_score_3darray is the r-th vote that entry s of video e's 'os' lists (a bare number counting as one vote), and NaN if there is no such vote. The shape is (number of videos, number of observers, max(1, longest vote list)).", "quantifier": "all accepted sequence-style datasets, all cells", "why_tests_cant": "the claim is about every cell of every dataset shape, ragged vote lists included", "anchors": [{"file": "sureal/dataset_reader.py", "symbols": ["RawDatasetReader.opinion_score_3darray", "RawDatasetReader._get_max_repetitions", "RawDatasetReader._get_num_observers"]}]}
{"id": "C04", "title": "Dictionary-style datasets are read by observer name, missing observers become NaN", "statement": "For a dict-style dataset cell (e, s, r) is the r-th vote of the s-th observer name (in sorted order) on video e, and NaN when that observer did not rate video e or gave fewer votes.", "quantifier": "all accepted dict-style datasets with any sets of observers per video", "why_tests_cant": "every pattern of missing observers and repetition counts must be handled", "anchors": [{"file": "sureal/dataset_reader.py", "symbols": ["RawDatasetReader.opinion_score_3darray", "RawDatasetReader._get_list_observers"]}]}
{"id": "C05", "title": "The observer list is the sorted duplicate-free union of all raters and does not depend on dict order", "statement": "The observer list of a dict-style dataset is strictly increasing, contains a name iff that name rated some video, and neither it nor the opinion score array changes when the entries of any 'os' dict are reordered.", "quantifier": "all dict-style datasets and all reorderings of each video's 'os' entries", "why_tests_cant": "insertion orders form an unbounded family of histories", "anchors": [{"file": "sureal/dataset_reader.py", "symbols": ["RawDatasetReader._get_list_observers"]}, {"file": "sureal/tools/misc.py", "symbols": ["get_unique_sorted_list"]}]}
{"id": "C06", "title": "No vote is lost or duplicated by the 3-D array", "statement": "For every video the multiset of non-NaN cells of its slice of the opinion score array equals the multiset of non-NaN votes stored for that video in the dataset.", "quantifier": "all accepted datasets of either style", "why_tests_cant": "conservation over all datasets is an algebraic law, not a finite check", "anchors": [{"file": "sureal/dataset_reader.py", "symbols": ["RawDatasetReader.opinion_score_3darray"]}]}
{"id": "C07", "title": "Stacking repetitions is a lossless re-layout", "statement": "Stacking an E x S x R array along axis 0 or axis 1 puts every cell at exactly one position of the 2-D result, every position of the result comes from exactly one cell, and the column (or row) index modulo S (or E) recovers the observer (or video).", "quantifier": "all array shapes and contents", "why_tests_cant": "bijectivity must hold for every shape", "anchors": [{"file": "sureal/subjective_model.py", "symbols": ["SubjectiveModel._stack_repetitions_along_axis"]}]}
{"id": "C08", "title": "MOS is the arithmetic mean of the votes in the dataset, end to end", "statement": "MosModel(RawDatasetReader(d)).run_modeling()['quality_scores'][e] is the arithmetic mean of all non-NaN votes that dataset d lists for video e, over all observers and repetitions, and NaN when there are none.", "quantifier": "all accepted datasets of either style, all videos", "why_tests_cant": "end-to-end functional correctness over every input", "anchors": [{"file": "sureal/subjective_model.py", "symbols": ["MosModel._run_modeling", "MosModel._get_mos_and_stats"]}, {"file": "sureal/dataset_reader.py", "symbols": ["RawDatasetReader.opinion_score_3darray"]}]}
{"id": "C09", "title": "MOS lies between the lowest and the highest vote", "statement": "For a video with at least one vote, its MOS is at least its smallest vote and at most its largest vote; in particular scores on a 1..5 scale give a MOS in [1,5] and a unanimous video gets exactly that score.", "quantifier": "all score arrays", "why_tests_cant": "bounds over all inputs", "anchors": [{"file": "sureal/subjective_model.py", "symbols": ["MosModel._get_mos_and_stats"]}]}
{"id": "C10", "title": "MOS does not depend on observer order, repetition order or padding", "statement": "Permuting the observers, permuting the repetitions, or adding observers or repetition slots without votes leaves every MOS, its standard error and its ambiguity unchanged.", "quantifier": "all arrays and all permutations", "why_tests_cant": "quantifies over all permutations", "anchors": [{"file": "sureal/subjective_model.py", "symbols": ["MosModel._get_mos_and_stats"]}]}
{"id": "C11", "title": "MOS follows affine changes of the rating scale", "statement": "Replacing every vote x by a*x+b turns each MOS m into a*m+b and multiplies the standard error and the ambiguity by |a|.", "quantifier": "all arrays and all real a, b", "why_tests_cant": "an algebraic law over all inputs", "anchors": [{"file": "sureal/subjective_model.py", "symbols": ["MosModel._get_mos_and_stats"]}]}
{"id": "C12", "title": "MOS uncertainty: standard error, ambiguity and symmetric 95% interval", "statement": "quality_ambiguity is the sample standard deviation (n-1) of the video's votes, quality_scores_std is that divided by sqrt(n), both non-negative; they are NaN for fewer than two votes; the two half-widths of quality_scores_ci95 are equal and are 1.95996 times quality_scores_std.", "quantifier": "all arrays, all videos", "why_tests_cant": "formula correctness over every input incl. one-vote videos", "anchors": [{"file": "sureal/subjective_model.py", "symbols": ["MosModel._get_mos_and_stats"]}]}
{"id": "C13", "title": "Differential scoring: DMOS = MOS + ref_score - MOS of the reference", "statement": "With differential scoring each video's score is its MOS plus ref_score minus the MOS of the hidden reference of the same content, hence every hidden reference gets exactly ref_score; if some video's content has no or more than one hidden reference among the rated videos, the run raises.", "quantifier": "all datasets with ref_score, all contents", "why_tests_cant": "holds for all datasets, including NaN patterns", "anchors": [{"file": "sureal/subjective_model.py", "symbols": ["DmosModel.run_modeling", "SubjectiveModel._get_ref_mos", "SubjectiveModel._get_opinion_score_3darray_with_preprocessing"]}]}
{"id": "C14", "title": "Z-scoring gives every observer mean 0 and sample standard deviation 1", "statement": "After z-scoring, each observer whose votes are not all equal has votes of mean 0 and sample standard deviation 1; the missing-vote pattern is unchanged; an observer with constant votes (or a single vote) ends up with no usable vote at all.", "quantifier": "all arrays, all observers", "why_tests_cant": "universal over arrays and NaN patterns", "anchors": [{"file": "sureal/subjective_model.py", "symbols": ["SubjectiveModel._get_opinion_score_3darray_with_preprocessing"]}]}
{"id": "C15", "title": "Z-scoring removes any per-observer affine distortion", "statement": "If observer s's votes are replaced by a_s*x+b_s with a_s>0, the z-scored array, hence ZS_MOS, is unchanged.", "quantifier": "all arrays and all per-observer positive affine maps", "why_tests_cant": "quantifies over all maps", "anchors": [{"file": "sureal/subjective_model.py", "symbols": ["ZscoringMosModel.run_modeling"]}]}
{"id": "C16", "title": "Bias removal keeps MOS and equalises observers on complete data", "statement": "When every observer rated every video the same number of times, bias removal (P.913) leaves every video's MOS unchanged, gives every observer the same mean, the estimated biases sum to zero, and applying it twice equals applying it once.", "quantifier": "all complete arrays", "why_tests_cant": "algebraic law over all complete arrays", "anchors": [{"file": "sureal/subjective_model.py", "symbols": ["BiasremvMosModel", "SubjectiveModel._get_opinion_score_3darray_with_preprocessing"]}]}
{"id": "C17", "title": "Bias removal cancels constant observer offsets", "statement": "On complete data, adding a constant b_s to every vote of observer s shifts every BR_MOS by the mean of the b_s and changes each reported bias by b_s minus that mean.", "quantifier": "all complete arrays and all offsets", "why_tests_cant": "algebraic law", "anchors": [{"file": "sureal/subjective_model.py", "symbols": ["BiasremvMosModel"]}]}
{"id": "C18", "title": "BT.500 observer rejection follows the published counting rule", "statement": "The observer rejection of SR_MOS rejects observer s iff (P+Q)/(number of videos x repetitions) > 0.05 and |P-Q|/(P+Q) < 0.3, where P (Q) counts the votes of s at or above (at or below) the video's mean plus (minus) 2 standard deviations if the kurtosis is in [2,4] and sqrt(20) standard deviations otherwise; unless this would reject everybody, in which case nobody is rejected.", "quantifier": "all arrays", "why_tests_cant": "decision logic over all inputs incl. NaN patterns", "anchors": [{"file": "sureal/subjective_model.py", "symbols": ["SubjectiveModel._get_opinion_score_3darray_with_preprocessing", "SubjrejMosModel"]}]}
{"id": "C19", "title": "BT.500 rejection never empties the panel and reports exactly what it removed", "statement": "With the kurtosis rule at least one observer is kept whenever there is one; the kept columns are exactly the columns of the observers not flagged in observer_rejected, in the original order with unchanged votes, and all reported lists have one entry per observer.", "quantifier": "all arrays", "why_tests_cant": "partition invariant for all inputs", "anchors": [{"file": "sureal/subjective_model.py", "symbols": ["SubjectiveModel._get_opinion_score_3darray_with_preprocessing"]}]}
{"id": "C20", "title": "An observer who is never an outlier is never rejected", "statement": "An observer none of whose votes reaches the outlier thresholds is kept by the kurtosis rule; in particular a unanimous panel is never thinned out because of unanimity.", "quantifier": "all arrays", "why_tests_cant": "universal claim", "anchors": [{"file": "sureal/subjective_model.py", "symbols": ["SubjectiveModel._get_opinion_score_3darray_with_preprocessing"]}]}
{"id": "C21", "title": "Correlation-based rejection never empties the panel", "statement": "With the pearson or spearman rule at least one observer is kept whenever there is one.", "quantifier": "all arrays", "why_tests_cant": "universal claim over score arrays", "anchors": [{"file": "sureal/subjective_model.py", "symbols": ["SubjrejMosModelPearson", "SubjrejMosModelSpearman"]}]}
{"id": "C22", "title": "Correlation-based rejection flags exactly the observers it removed", "statement": "With the pearson or spearman rule an observer's column is removed iff observer_rejected flags them; an observer is removed iff their correlation with the MOS is at or below min(0.7, mean - std) of all correlations.", "quantifier": "all arrays", "why_tests_cant": "universal claim incl. undefined correlations", "anchors": [{"file": "sureal/subjective_model.py", "symbols": ["SubjectiveModel._get_opinion_score_3darray_with_preprocessing"]}]}
{"id": "C23", "title": "Conflicting or repeated processing options are refused, others are not", "statement": "Preprocessing raises when z-scoring and bias removal are both requested, when a rejection type is given without rejection, or when the type is unknown; a model that already applies an option raises when the caller passes that option as True; every other combination is accepted.", "quantifier": "all option combinations and all model classes", "why_tests_cant": "exhausts every combination incl. None values", "anchors": [{"file": "sureal/subjective_model.py", "symbols": ["SubjectiveModel._get_opinion_score_3darray_with_preprocessing", "DmosModel", "SubjrejMosModel", "ZscoringSubjrejDmosModel", "BiasremvSubjrejMosModel"]}]}
{"id": "C24", "title": "Each named model is MOS with exactly its documented options", "statement": "SR_MOS, ZS_MOS, ZS_SR_MOS, DMOS, SR_DMOS, ZS_SR_DMOS, BR_MOS, BR_SR_MOS, the PCC/SRCC variants, BT500 and P913 give the same quality scores as MosModel run with the corresponding options (and the DMOS_MLE variants the same as MLE with dscore).", "quantifier": "all datasets and all further options", "why_tests_cant": "equality of two programs on every input", "anchors": [{"file": "sureal/subjective_model.py", "symbols": ["SubjrejMosModel", "ZscoringMosModel", "BiasremvSubjrejMosModel"]}, {"file": "sureal/__init__.py", "symbols": ["BT500Model", "P913124Model", "P910AnnexEModel"]}]}
{"id": "C25", "title": "Final normalisation and transform", "statement": "normalize_final yields quality scores of mean 0 and population standard deviation 1 (when the scores are not all equal) in the same order; transform_final maps each score q to p2*q^2+p1*q+p0 (absent coefficients 0), after normalisation; nothing else in the result changes.", "quantifier": "all score vectors and all coefficients", "why_tests_cant": "universal", "anchors": [{"file": "sureal/subjective_model.py", "symbols": ["SubjectiveModel._postprocess_model_result"]}]}
{"id": "C26", "title": "P.910 solver: reported observer biases have mean zero and the fit is unaffected by that", "statement": "With the default options the reported observer biases of the alternating-projection model average to zero, and reconstruction of every vote equals quality score plus observer bias, the same value as without forcing zero mean.", "quantifier": "all arrays on which the run succeeds", "why_tests_cant": "invariant of an iterative algorithm for all inputs", "anchors": [{"file": "sureal/subjective_model.py", "symbols": ["SubjectMLEModelProjectionSolver._run_modeling"]}]}
{"id": "C27", "title": "P.910 solver always stops after at most 1000 iterations", "statement": "The alternating-projection model performs at least 1 and at most 1000 iterations on every input and reports that number, or raises because a quality score is not finite.", "quantifier": "all arrays", "why_tests_cant": "termination on every input", "anchors": [{"file": "sureal/subjective_model.py", "symbols": ["SubjectMLEModelProjectionSolver._run_modeling"]}]}
{"id": "C28", "title": "P.910 solver recovers additive data exactly", "statement": "If every vote is x = q_e + b_s with all votes present, the solver returns quality q_e + mean(b), bias b_s - mean(b), inconsistency 0, in one iteration.", "quantifier": "all q, b, all panel sizes and repetition counts", "why_tests_cant": "a recovery theorem for all parameters", "anchors": [{"file": "sureal/subjective_model.py", "symbols": ["SubjectMLEModelProjectionSolver._run_modeling", "SubjectMLEModelProjectionSolver2"]}]}
{"id": "C29", "title": "P.910 solver is equivariant under a shift of the scale", "statement": "Adding a constant c to all votes adds c to all quality scores and leaves biases, inconsistencies and the number of iterations unchanged.", "quantifier": "all arrays and all c", "why_tests_cant": "equality of two complete runs for all inputs", "anchors": [{"file": "sureal/subjective_model.py", "symbols": ["SubjectMLEModelProjectionSolver._run_modeling"]}]}
{"id": "C30", "title": "P.910 solver absorbs a constant observer offset into that observer's bias", "statement": "On complete data, adding d_s to all votes of observer s changes every quality score by mean(d) and the bias of s by d_s - mean(d), leaving the inconsistencies unchanged.", "quantifier": "all complete arrays and all d", "why_tests_cant": "equality of two complete runs", "anchors": [{"file": "sureal/subjective_model.py", "symbols": ["SubjectMLEModelProjectionSolver._run_modeling"]}]}
{"id": "C31", "title": "P.910 solver does not depend on the order of observers or videos", "statement": "Permuting observers permutes biases and inconsistencies and leaves quality scores unchanged; permuting videos permutes quality scores and leaves observer results unchanged.", "quantifier": "all arrays and all permutations", "why_tests_cant": "all permutations, complete runs", "anchors": [{"file": "sureal/subjective_model.py", "symbols": ["SubjectMLEModelProjectionSolver._run_modeling"]}]}
{"id": "C32", "title": "Each P.910 quality update is a convex combination of bias-corrected votes", "statement": "Each new quality score lies between the smallest and the largest bias-corrected vote of that video (weights are positive), and observers with a smaller residual spread get a larger weight.", "quantifier": "all arrays and all iterations", "why_tests_cant": "invariant over iterations", "anchors": [{"file": "sureal/subjective_model.py", "symbols": ["SubjectMLEModelProjectionSolver._run_modeling"]}, {"file": "sureal/tools/misc.py", "symbols": ["weighed_nanmean_2d"]}]}
{"id": "C33", "title": "The standalone ITU demo scripts compute what the P.910 model computes", "statement": "run_alternating_projection of the BT.500 demo returns, for every array, the same quality scores, confidence half-widths' base, observer biases and inconsistencies as SubjectMLEModelProjectionSolver2; and the 2-D P.910/P.913 demos agree with it for one repetition.", "quantifier": "all arrays", "why_tests_cant": "equivalence of three programs on every input", "anchors": [{"file": "itur_bt500_demo/demo_bt500.py", "symbols": ["run_alternating_projection"]}, {"file": "itut_p910_demo/demo_p910.py", "symbols": ["run_alternating_projection"]}, {"file": "sureal/subjective_model.py", "symbols": ["SubjectMLEModelProjectionSolver2"]}]}
{"id": "C34", "title": "MLE: the 'simplified' and 'original' gradient methods give the same results", "statement": "For every dataset and mode on which all variances stay positive the MLE model returns the same result with gradient_method='simplified' and 'original'.", "quantifier": "all arrays, all modes, complete runs", "why_tests_cant": "equality of two iterative programs for all inputs", "anchors": [{"file": "sureal/subjective_model.py", "symbols": ["MaximumLikelihoodEstimationModel._run_modeling"]}]}
{"id": "C35", "title": "MLE: the update formulas are the true derivatives of the log-likelihood", "statement": "The first- and second-order quantities used to update observer bias, observer inconsistency, content ambiguity and quality are the first and second partial derivatives of the Gaussian log-likelihood of the observed votes.", "quantifier": "all arrays and all parameter values with positive variance", "why_tests_cant": "calculus identity for all parameters", "anchors": [{"file": "sureal/subjective_model.py", "symbols": ["MaximumLikelihoodEstimationModel._run_modeling", "MaximumLikelihoodEstimationModel.loglikelihood_fcn"]}]}
{"id": "C36", "title": "MLE: modes, non-negativity, zero-mean bias and iteration bound", "statement": "On every run that completes: inconsistencies and ambiguities are never negative, content-oblivious runs have no content ambiguity, subject-oblivious runs have zero bias and inconsistency, biases average to zero by default, and the number of iterations is between 1 and 10000.", "quantifier": "all arrays, modes and gradient methods", "why_tests_cant": "invariants of the iteration for all inputs", "anchors": [{"file": "sureal/subjective_model.py", "symbols": ["MaximumLikelihoodEstimationModel._run_modeling"]}]}
{"id": "C37", "title": "Least squares model equals MOS on complete data", "statement": "On complete single-repetition data the least-squares model's quality scores equal the MOS and its biases equal observer mean minus grand mean.", "quantifier": "all complete arrays", "why_tests_cant": "linear-algebra theorem for every size", "anchors": [{"file": "sureal/subjective_model.py", "symbols": ["LeastSquaresModel._run_modeling"]}]}
{"id": "C38", "title": "LIVE DMOS is an affine image of the z-scored differential scores", "statement": "LIVE_DMOS is 100*(z+3)/6 of the mean z-scored differential score, so it agrees with ZS-scored DMOS up to that map, and it refuses dscore/zscore options passed again.", "quantifier": "all datasets", "why_tests_cant": "program equivalence on all inputs", "anchors": [{"file": "sureal/subjective_model.py", "symbols": ["LiveDmosModel._run_modeling"]}]}
{"id": "C39", "title": "Weighted nan-mean is the weighted average of the present values", "statement": "weighed_nanmean_2d returns per row (or column) the weighted average of the non-NaN entries, lies between their min and max for positive weights, equals the plain mean for equal weights, is unchanged by scaling all weights, and raises for arrays that are not 2-D.", "quantifier": "all arrays, positive weights", "why_tests_cant": "universal", "anchors": [{"file": "sureal/tools/misc.py", "symbols": ["weighed_nanmean_2d"]}]}
{"id": "C40", "title": "Aggregated datasets keep each score attached to its video", "statement": "to_aggregated_dataset returns exactly the requested videos in order, each with its own score as groundtruth (and std), no opinion scores, all other fields unchanged, and leaves the source dataset untouched; mismatched lengths raise.", "quantifier": "all datasets, score lists and content/asset filters", "why_tests_cant": "alignment must survive every filter", "anchors": [{"file": "sureal/dataset_reader.py", "symbols": ["RawDatasetReader.to_aggregated_dataset", "RawDatasetReader._prepare_new_dataset"]}]}
{"id": "C41", "title": "Per-subject datasets list every present vote exactly once", "statement": "to_persubject_dataset on single-repetition scores lists, video by video, one entry per present vote with that vote as groundtruth; for dict-style datasets missing observers are skipped.", "quantifier": "all datasets with one repetition", "why_tests_cant": "universal", "anchors": [{"file": "sureal/dataset_reader.py", "symbols": ["RawDatasetReader.to_persubject_dataset"]}, {"file": "sureal/subjective_model.py", "symbols": ["PerSubjectModel"]}]}
{"id": "C42", "title": "Conversion to dictionary style preserves all votes", "statement": "to_dictionary_style_dataset yields a dataset the reader accepts, in which every video has the same votes per observer as before; MOS is unchanged; dict-style datasets are returned as they are.", "quantifier": "all accepted sequence-style datasets", "why_tests_cant": "needs distinct generated names for all panel sizes and survives lexicographic re-ordering", "anchors": [{"file": "sureal/dataset_reader.py", "symbols": ["RawDatasetReader.to_dictionary_style_dataset"]}]}
{"id": "C43", "title": "Combining overlapping datasets concatenates votes", "statement": "to_combined_overlap_dataset lists one video per pair with equal path; its votes per subject are the first dataset's votes followed by the second's; new content ids are 0..k-1 in order of first use and every distorted video has its reference.", "quantifier": "all pairs of datasets", "why_tests_cant": "universal over overlaps and repeated subjects", "anchors": [{"file": "sureal/dataset_reader.py", "symbols": ["RawDatasetReader.to_combined_overlap_dataset"]}]}
{"id": "C44", "title": "Combining datasets leaves the source datasets unchanged", "statement": "to_combined_overlap_dataset does not modify either input dataset.", "quantifier": "all pairs of datasets", "why_tests_cant": "absence of side effects for all inputs", "anchors": [{"file": "sureal/dataset_reader.py", "symbols": ["RawDatasetReader.to_combined_overlap_dataset"]}]}
{"id": "C45", "title": "Pairwise conversion: each comparable pair is decided by the two scores", "statement": "With default options to_pc_dataset records, for each subject and each pair of videos of the same content they rated, exactly one win (1) for the higher score or a 0.5/0.5 split for equal scores, and nothing across contents; within_subject drops the content restriction.", "quantifier": "all dict-style datasets with one vote per subject and video", "why_tests_cant": "all pairs of all datasets", "anchors": [{"file": "sureal/dataset_reader.py", "symbols": ["RawDatasetReader.to_pc_dataset"]}]}
{"id": "C46", "title": "Pairwise conversion leaves the source dataset unchanged", "statement": "to_pc_dataset does not modify the reader's dataset.", "quantifier": "all datasets", "why_tests_cant": "absence of side effects", "anchors": [{"file": "sureal/dataset_reader.py", "symbols": ["RawDatasetReader.to_pc_dataset"]}]}
{"id": "C47", "title": "Random pair sampling stays within the legal outcomes", "statement": "For every random stream and every sampling, coin-toss and noise setting, to_pc_dataset only records outcomes 1 or 0.5 between two distinct videos rated by that subject (same content if restricted); a rate of 0 records nothing and a rate of at least 1 decides every pair.", "quantifier": "all random streams and settings", "why_tests_cant": "randomness ranges over all streams", "anchors": [{"file": "sureal/dataset_reader.py", "symbols": ["RawDatasetReader.to_pc_dataset"]}]}
{"id": "C48", "title": "Per-asset sampling, coin-toss and noise settings apply to the right asset", "statement": "The per-asset settings used for a pair are those of the two assets compared.", "quantifier": "all datasets with any sets of rated assets", "why_tests_cant": "depends on every pattern of missing ratings", "anchors": [{"file": "sureal/dataset_reader.py", "symbols": ["RawDatasetReader.to_pc_dataset"]}]}
{"id": "C49", "title": "Paired-comparison array is complementary", "statement": "In the paired-comparison array entry [i,j,s] + entry [j,i,s] = 1 whenever either is present (i != j), both are NaN otherwise, and every present entry is 0, 0.5 or 1; any other recorded value raises.", "quantifier": "all paired-comparison datasets", "why_tests_cant": "invariant under all write orders", "anchors": [{"file": "sureal/dataset_reader.py", "symbols": ["PairedCompDatasetReader.opinion_score_3darray"]}]}
{"id": "C50", "title": "Paired-comparison array indexes both sides by the same video", "statement": "Entry [i,j,s] describes video number i against video number j of the dataset.", "quantifier": "all accepted paired-comparison datasets", "why_tests_cant": "needs all asset-id assignments", "anchors": [{"file": "sureal/dataset_reader.py", "symbols": ["PairedCompDatasetReader.opinion_score_3darray", "PairedCompDatasetReader._assert_dataset"]}]}
{"id": "C51", "title": "Selected-subject reader returns the selected columns", "statement": "SelectSubjectRawDatasetReader's array consists of the selected observers' columns of the base array.", "quantifier": "all datasets and selections", "why_tests_cant": "all selections", "anchors": [{"file": "sureal/dataset_reader.py", "symbols": ["SelectSubjectRawDatasetReader"]}]}
{"id": "C52", "title": "Missing-data reader only removes votes", "statement": "MissingDataRawDatasetReader's array agrees with the base array except for cells turned into NaN, and for every random stream a cell is removed iff its draw is at most the probability.", "quantifier": "all arrays, probabilities, streams", "why_tests_cant": "all random streams", "anchors": [{"file": "sureal/dataset_reader.py", "symbols": ["MissingDataRawDatasetReader"]}]}
{"id": "C53", "title": "Corrupt-subject reader touches only the selected subjects", "statement": "For every behaviour and every random stream only the selected subjects' columns change; shuffle permutes whole videos within a column, flip maps x to max+min-x and twice flip is the identity, min/mid/max/constant values stay within the range of the votes.", "quantifier": "all arrays, selections, behaviours, streams", "why_tests_cant": "all streams and permutations", "anchors": [{"file": "sureal/dataset_reader.py", "symbols": ["CorruptSubjectRawDatasetReader"]}]}
{"id": "C54", "title": "Synthetic reader realises the generative model", "statement": "SyntheticRawDatasetReader's array is quality + bias + content bias + noise terms scaled by inconsistency and ambiguity; with zero inconsistency and ambiguity it is exactly additive, and wrongly sized inputs raise.", "quantifier": "all parameters and noise streams", "why_tests_cant": "all streams", "anchors": [{"file": "sureal/dataset_reader.py", "symbols": ["SyntheticRawDatasetReader"]}]}
{"id": "C55", "title": "Bradley-Terry MLE keeps a probability vector", "statement": "Every iterate of the Bradley-Terry MLE model is a probability vector; if every video wins at least once all entries are positive.", "quantifier": "all win matrices, all iterations", "why_tests_cant": "invariant of an unbounded loop", "anchors": [{"file": "sureal/pc_subjective_model.py", "symbols": ["BradleyTerryMlePairedCompSubjectiveModel.resolve_model"]}]}
{"id": "C56", "title": "Bradley-Terry MLE never decreases the likelihood", "statement": "Each iteration of the Bradley-Terry MLE model does not decrease the Bradley-Terry log-likelihood of the observed comparisons.", "quantifier": "all win matrices, all iterates", "why_tests_cant": "an inequality over all real inputs", "anchors": [{"file": "sureal/pc_subjective_model.py", "symbols": ["BradleyTerryMlePairedCompSubjectiveModel.resolve_model"]}]}
{"id": "C57", "title": "Bradley-Terry MLE stops only at stationary points of the likelihood", "statement": "A probability vector is left unchanged by an iteration iff it satisfies the likelihood equations (expected wins equal observed wins).", "quantifier": "all win matrices", "why_tests_cant": "universal", "anchors": [{"file": "sureal/pc_subjective_model.py", "symbols": ["BradleyTerryMlePairedCompSubjectiveModel.resolve_model"]}]}
{"id": "C58", "title": "Bradley-Terry covariance uses the Hessian of the log-likelihood", "statement": "The matrix used for the confidence intervals of BT_MLE is the Hessian of the log-likelihood (lambda_ij = n_ij/(p_i+p_j)^2 off the diagonal).", "quantifier": "all win matrices and probability vectors", "why_tests_cant": "formula for all inputs", "anchors": [{"file": "sureal/pc_subjective_model.py", "symbols": ["BradleyTerryMlePairedCompSubjectiveModel.resolve_model"]}]}
{"id": "C59", "title": "Bradley-Terry Newton-Raphson pins the last video and uses the true gradient", "statement": "BT_NR reports 0 for the last video (before z-scoring) and stops only where the log-likelihood gradient vanishes (for an invertible Hessian); with zscore_output the scores have mean 0 and std 1.", "quantifier": "all win matrices, all iterations", "why_tests_cant": "invariant + calculus for all inputs", "anchors": [{"file": "sureal/pc_subjective_model.py", "symbols": ["BradleyTerryNewtonRaphsonPairedCompSubjectiveModel._run_modeling"]}]}
{"id": "C60", "title": "Thurstone likelihood depends only on score differences", "statement": "The negative log-likelihood minimised by THURSTONE_MLE is unchanged by adding a constant to all scores and by relabelling the videos consistently.", "quantifier": "all score vectors, all win matrices", "why_tests_cant": "symmetry for all inputs", "anchors": [{"file": "sureal/pc_subjective_model.py", "symbols": ["ThurstoneMlePairedCompSubjectiveModel.neg_log_likelihood_function"]}]}
{"id": "C61", "title": "parallel_map returns results in input order under every schedule", "statement": "Whatever order worker processes are started in and finish in, parallel_map returns [f(a0), f(a1), ...] in input order, runs every task exactly once, and never has more than the allowed number of workers active.", "quantifier": "all task lists, process limits >= 1 and all interleavings", "why_tests_cant": "schedules are unbounded", "anchors": [{"file": "sureal/tools/misc.py", "symbols": ["parallel_map"]}]}
{"id": "C62", "title": "parallel_map does not silently drop a failed task", "statement": "If any worker dies before storing its result, parallel_map raises instead of returning a list with a missing or wrong entry.", "quantifier": "all crash points and interleavings", "why_tests_cant": "crash points", "anchors": [{"file": "sureal/tools/misc.py", "symbols": ["parallel_map"]}]}
{"id": "C63", "title": "Memoisation is transparent", "statement": "After any history of calls, calling a memoised function returns the value the function would return, evaluating it at most once per distinct argument.", "quantifier": "all call histories of a deterministic function", "why_tests_cant": "unbounded histories", "anchors": [{"file": "sureal/tools/decorator.py", "symbols": ["memoized"]}]}
{"id": "C64", "title": "Directory caching survives crashes", "statement": "With persist_to_dir, after any history of calls and crashes, a call returns the value of the function.", "quantifier": "all histories and crash points", "why_tests_cant": "crash points", "anchors": [{"file": "sureal/tools/decorator.py", "symbols": ["persist_to_dir"]}]}
{"id": "C65", "title": "Option lookup returns the value following the first occurrence", "statement": "get_cmd_option returns the argument right after the first occurrence of the option inside [begin,end), None if there is none or it is last; cmd_option_exists tells whether it occurs there.", "quantifier": "all argument lists and bounds within the list", "why_tests_cant": "universal", "anchors": [{"file": "sureal/tools/misc.py", "symbols": ["get_cmd_option", "cmd_option_exists"]}]}
{"id": "C66", "title": "Model lookup by type is unambiguous", "statement": "find_subclass returns the unique descendant class with the requested TYPE and raises if there is none or several.", "quantifier": "all class hierarchies", "why_tests_cant": "universal over hierarchies", "anchors": [{"file": "sureal/core/mixin.py", "symbols": ["TypeVersionEnabled.find_subclass", "get_subclasses_recursively"]}]}
{"id": "C67", "title": "Convolution of two uniforms is a shift-invariant density", "statement": "convolution_of_two_uniforms(x, loc1, s1, loc2, s2) is the density of the sum of two independent uniforms: non-negative, depends on x - loc1 - loc2 only, symmetric, and integrates to 1.", "quantifier": "all x, locations, positive widths", "why_tests_cant": "calculus over all reals", "anchors": [{"file": "sureal/tools/stats.py", "symbols": ["convolution_of_two_uniforms"]}]}
{"id": "C68", "title": "Performance metrics: RMSE, PCC, SRCC, Kendall laws", "statement": "RMSE is non-negative, symmetric and 0 iff the lists agree; PCC is symmetric, in [-1,1] and invariant under positive affine maps; rank metrics are invariant under strictly increasing maps; lists of different lengths raise.", "quantifier": "all score lists", "why_tests_cant": "universal", "anchors": [{"file": "sureal/perf_metric.py", "symbols": ["RmsePerfMetric", "PccPerfMetric", "SrccPerfMetric", "KendallPerfMetric"]}]}
{"id": "C69", "title": "Formatted output places every number under its own video, observer and model", "statement": "In the dictionary produced for the command line, the entry of model m and video v holds exactly model m's quality score (std, ci) of v, likewise for observers, and lists of wrong length raise.", "quantifier": "all model results", "why_tests_cant": "alignment for all inputs", "anchors": [{"file": "sureal/routine.py", "symbols": ["format_output_of_run_subjective_models"]}]}
{"id": "C70", "title": "Confidence interval coverage is a percentage", "statement": "get_ci_percentage returns a number in [0,100]: the share of true values inside their intervals; widening intervals never lowers it.", "quantifier": "all inputs", "why_tests_cant": "universal", "anchors": [{"file": "sureal/routine.py", "symbols": ["get_ci_percentage"]}]}
{"id": "C71", "title": "Datasets survive being written and re-imported", "statement": "Writing a dataset with write_out_dataset and importing the file again gives the same public attributes and videos.", "quantifier": "all datasets", "why_tests_cant": "universal", "anchors": [{"file": "sureal/dataset_reader.py", "symbols": ["DatasetReader.write_out_dataset"]}]}
{"id": "C72", "title": "Information criteria follow from likelihood, size and freedom", "statement": "The statistics reported by the maximum likelihood model satisfy aic = 2 dof - 2 loglikelihood and bic = log(numobs) dof - 2 loglikelihood, where numobs is the number of finite votes and dof counts the parameters fitted by the chosen variant.", "quantifier": "all datasets and variants", "why_tests_cant": "universal over datasets and variants", "anchors": [{"file": "sureal/subjective_model.py", "symbols": ["MaximumLikelihoodEstimationModel._run_modeling"]}]}
{"id": "C73", "title": "Selected-video reader returns the selected videos in order", "statement": "SelectDisVideoRawDatasetReader reads exactly the videos with the requested asset ids, in the requested order, as if the dataset consisted of them; an unknown id raises.", "quantifier": "all datasets and selections", "why_tests_cant": "universal over datasets", "anchors": [{"file": "sureal/dataset_reader.py", "symbols": ["SelectDisVideoRawDatasetReader"]}]}
{"id": "C74", "title": "Corrupt-data reader replaces only the drawn cells, by legal scores", "statement": "For every random stream CorruptDataRawDatasetReader replaces a cell iff its draw is at most the probability, each by a number between 1 and ref_score, and keeps all other cells.", "quantifier": "all datasets, probabilities and streams", "why_tests_cant": "random streams", "anchors": [{"file": "sureal/dataset_reader.py", "symbols": ["CorruptDataRawDatasetReader"]}]}
{"id": "C75", "title": "Exporting a mocked dataset and reading it again gives the same scores", "statement": "MockedRawDatasetReader.to_dataset gives a dataset that a RawDatasetReader accepts and whose array equals the mocked array, everything but the scores unchanged.", "quantifier": "all mocked readers with one repetition", "why_tests_cant": "universal", "anchors": [{"file": "sureal/dataset_reader.py", "symbols": ["MockedRawDatasetReader.to_dataset"]}]}
{"id": "C76", "title": "Bradley-Terry MLE terminates", "statement": "If every video wins at least once the unbounded loop of the Bradley-Terry MLE model ends after finitely many passes, with exactly one outcome, which is a probability vector and not an exception.", "quantifier": "all win matrices in which every video wins", "why_tests_cant": "termination of an unbounded loop", "anchors": [{"file": "sureal/pc_subjective_model.py", "symbols": ["BradleyTerryMlePairedCompSubjectiveModel.resolve_model"]}]}
{"id": "C77", "title": "Thurstone confidence intervals use the Hessian of the likelihood", "statement": "Both ways to compute the curvature matrix (use_simplified_lbda true and false) agree, and the entry for a pair of videos is the second derivative of the pair's log-likelihood in the first score.", "quantifier": "all win matrices and scores", "why_tests_cant": "calculus over all reals", "anchors": [{"file": "sureal/pc_subjective_model.py", "symbols": ["ThurstoneMlePairedCompSubjectiveModel.resolve_model"]}]}
{"id": "C78", "title": "The command line picks the reader that fits the models", "statement": "The raw reader is used iff at least one model is requested and none is a paired comparison model, the paired comparison reader iff at least one is requested and all are; otherwise the program raises.", "quantifier": "all lists of model classes", "why_tests_cant": "universal", "anchors": [{"file": "sureal/__main__.py", "symbols": ["main"]}]}
{"id": "C79", "title": "The sigmoid mapping keeps the order and the range of the truths", "statement": "With enable_mapping and a least-squares fit of finite intercept and non-zero slope, every metric is evaluated on predictions mapped strictly between the smallest truth minus 0.1 and the largest truth plus 0.1, by an increasing map if the slope is positive and a decreasing map if it is negative; SRCC and Kendall are unchanged, respectively change sign.", "quantifier": "all score lists, all fits", "why_tests_cant": "universal over lists and fits", "anchors": [{"file": "sureal/perf_metric.py", "symbols": ["AggrScorePerfMetric.sigmoid_adjust", "AggrScorePerfMetric._preprocess"]}]}
{"id": "C80", "title": "Importing a dataset file gives exactly what the file assigns", "statement": "import_python_file returns a module whose attributes are exactly the names the file assigns, whatever was imported before.", "quantifier": "all files and all modules loaded before", "why_tests_cant": "depends on the history of the process", "anchors": [{"file": "sureal/tools/misc.py", "symbols": ["import_python_file"]}]}
{"id": "C81", "title": "The early maximum likelihood model agrees with the content oblivious one", "statement": "Without preprocessing, on data with one vote per observer and video and votes of every observer, if the variances stay positive and MLE_CO stops within 5000 passes, MLE_legacy gives the same quality scores, biases and inconsistencies.", "quantifier": "all datasets and all runs of the two iterations", "why_tests_cant": "quantifies over unboundedly many passes of two programs", "anchors": [{"file": "sureal/subjective_model.py", "symbols": ["LegacyMaximumLikelihoodEstimationModel._run_modeling", "MaximumLikelihoodEstimationModel._run_modeling"]}]}
{"id": "C82", "title": "The early maximum likelihood model ascends the likelihood by Newton steps", "statement": "Each pass of MLE_legacy applies to the biases, then the inconsistencies (their logarithms with use_log), then the qualities a damped Newton step with the first two derivatives of the Gaussian log-likelihood of the votes.", "quantifier": "all votes, masks and parameters with positive inconsistencies", "why_tests_cant": "derivatives of a function of real parameters", "anchors": [{"file": "sureal/subjective_model.py", "symbols": ["LegacyMaximumLikelihoodEstimationModel._run_modeling"]}]}
{"id": "C83", "title": "A silent subject does not influence the early maximum likelihood model", "statement": "Adding a subject without any vote leaves the quality scores and the parameters of the other subjects of MLE_legacy unchanged; the silent subject gets NaN.", "quantifier": "all votes, all positions of the silent subject, with and without use_log", "why_tests_cant": "relates two unbounded iterations", "anchors": [{"file": "sureal/subjective_model.py", "symbols": ["LegacyMaximumLikelihoodEstimationModel._run_modeling"]}]}
{"id": "C84", "title": "The numerical gradient method uses difference quotients of the same likelihood", "statement": "With gradient_method='numerical' and the Gaussian density every update of MLE is a damped Newton step with the central difference quotients (step 0.001) of the log-likelihood in the parameter; for biases and qualities these are the exact derivatives.", "quantifier": "all votes, masks and parameters with positive variances", "why_tests_cant": "real-valued identities", "anchors": [{"file": "sureal/subjective_model.py", "symbols": ["MaximumLikelihoodEstimationModel._run_modeling", "MaximumLikelihoodEstimationModel.loglikelihood_fcn"]}]}
{"id": "C85", "title": "A run of the maximum likelihood models is a sequence of Newton rounds from the mean opinion scores", "statement": "Every completed run of MLE, MLE_CO, MLE_SO with an analytic gradient starts from the mean opinion scores with zero biases, the standard deviation of each observer's (content's) residuals, makes rounds of damped Newton steps on the Gaussian likelihood in which every step uses the newest values of the other parameters, stops the first time the qualities move by less than the threshold (or after 10000 rounds), and reports the last parameters with the biases moved to mean 0 and the qualities along.", "quantifier": "all readers, all options, any number of rounds", "why_tests_cant": "quantifies over unboundedly long runs on real parameters", "anchors": [{"file": "sureal/subjective_model.py", "symbols": ["MaximumLikelihoodEstimationModel._run_modeling"]}]}
{"id": "C86", "title": "The sigmoid mapping is the logistic curve of best fit", "statement": "With enable_mapping, sigmoid_adjust maps the predictions through a logistic curve from the smallest truth minus 0.1 to the largest plus 0.1 whose midpoint and scale are the least squares line of the predictions on the logits of the truths. If the truths lie on such a curve the RMSE is 0; if the predictions never contradict the order of the truths the rank correlations are unchanged, if they never agree with it they change sign.", "quantifier": "all lists of truths (not all equal) and predictions, any least squares fit", "why_tests_cant": "identities of real functions over lists of any length", "anchors": [{"file": "sureal/perf_metric.py", "symbols": ["AggrScorePerfMetric.sigmoid_adjust", "AggrScorePerfMetric._preprocess"]}]}
{"id": "C87", "title": "The random settings of the conversion to paired comparisons act with the stated probabilities", "statement": "With sampling rate q <= 1, coin-toss rate c and noise level s and independent uniform and normal draws, to_pc_dataset records a comparable pair as won by the first with probability q(c/2 + (1-c)p), p the probability that its score plus noise is the higher, likewise for the second; splits the point only for equal scores without noise and without the coin-toss tiebreak, with probability q(1-c); and records nothing with probability 1-q.", "quantifier": "all dictionary-style datasets, pairs, subjects and rates", "why_tests_cant": "a statement on the distribution of the output over all streams of random numbers", "anchors": [{"file": "sureal/dataset_reader.py", "symbols": ["RawDatasetReader.to_pc_dataset"]}]}
{"id": "C88", "title": "Bootstrapping does not change the estimates", "statement": "MLE_BSTP and MLE_CO_BSTP report the scores, biases and inconsistencies (if the biases are finite also the reconstructions, likelihood, AIC and BIC) that MLE and MLE_CO report under the same options, with or without force_subjbias_zeromean; only the intervals differ. An interval is missing exactly when its bootstrap_* flag is False, and n_bootstrap <= 0 is refused.", "quantifier": "all datasets, options, numbers of passes and draws", "why_tests_cant": "compares two programs on all datasets", "anchors": [{"file": "sureal/experimental.py", "symbols": ["MaximumLikelihoodEstimationModelWithBootstrapping._run_modeling"]}]}
{"id": "C89", "title": "Bootstrapped score intervals are quantiles of the estimates from resampled panels", "statement": "The ends of quality_scores_ci95 of MLE_BSTP are the 2.5% and the 97.5% quantile (linear interpolation) of the scores estimated by MLE from N panels, the i-th consisting of the subjects drawn in pass i, each moved so that its subjects have the same mean bias as in the full data; with the default of 30 passes at most one estimate lies below and at most one above the interval.", "quantifier": "all datasets, options, draws and numbers of passes with finite estimates", "why_tests_cant": "quantifies over all draws and all estimates", "anchors": [{"file": "sureal/experimental.py", "symbols": ["MaximumLikelihoodEstimationModelWithBootstrapping._bootstrap_subjects"]}]}
{"id": "C90", "title": "Bootstrapped bias and inconsistency intervals are quantiles of the estimates from resampled videos", "statement": "The ends of observer_bias_ci95 and observer_inconsistency_ci95 are the 2.5% and the 97.5% quantile of the estimates of MLE from N draws of videos, the biases moved so that the drawn videos have the same mean score as in the full data.", "quantifier": "all datasets, options, draws and numbers of passes with finite estimates", "why_tests_cant": "quantifies over all draws and all estimates", "anchors": [{"file": "sureal/experimental.py", "symbols": ["MaximumLikelihoodEstimationModelWithBootstrapping._boostrap_dis_videos"]}]}
{"id": "C91", "title": "The ITU demos read the votes of a CSV file cell by cell, or refuse it", "statement": "read_csv_into_3darray accepts a file of matrices separated by lines with a single comma iff all matrices have the size of the first, and then vote (e, s, r) is the number in row e, column s of the r-th matrix; a file that breaks this raises ValueError. The demo on that file reports what the package reports on a dataset with the same votes.", "quantifier": "all texts without quotation marks, matrices of any size and number", "why_tests_cant": "unboundedly many files", "anchors": [{"file": "itur_bt500_demo/demo_bt500.py", "symbols": ["read_csv_into_3darray"]}, {"file": "itut_p910_demo/demo_p910.py", "symbols": ["read_csv_into_2darray"]}]}
{"id": "C92", "title": "Standard deviations estimated from paired comparisons are numbers that fit the covariance", "statement": "If all videos are linked by comparisons, THURSTONE_MLE and BT_MLE report positive standard deviations, the square roots of the diagonal of the reported covariance; the covariance sums to 0 by rows and columns and inverts the information matrix on centred scores.", "quantifier": "all win matrices with linked videos, all scores found by the optimiser", "why_tests_cant": "universal over matrices of any size; inverses of real matrices", "anchors": [{"file": "sureal/pc_subjective_model.py", "symbols": ["ThurstoneMlePairedCompSubjectiveModel.resolve_model", "BradleyTerryMlePairedCompSubjectiveModel.resolve_model"]}]}
{"id": "C93", "title": "A table of votes becomes the dataset it describes", "statement": "mos_to_sureal.py converts a table exactly when every PVS_ID has three parts with a number in the second and third and the first row of every video has a rating in every rating column (at least one). The dataset has one distorted video per identifier with the ratings (fractions cut off) of its first row, one reference video per source, content and asset ids from the first number of source and processing; the reader accepts it and the MOS of a video is the mean of those ratings. (Distinct asset ids, all rows and fractions are not kept: refuted.)", "quantifier": "all tables, all iteration orders of sets, all options", "why_tests_cant": "unboundedly many tables and set orders", "anchors": [{"file": "resource/util/mos_to_sureal.py", "symbols": ["convert_file", "get_ids_from_pvs", "extract_scores_from_record"]}]}
{"id": "C94", "title": "Reconstruction statistics describe exactly the cells with vote and reconstruction", "statement": "run_subjective_models runs every model on one reader of the file and reports the results in order, refusing files that are neither .py nor .json. A result with votes and reconstructions gets the RMSE and the Pearson and Spearman correlations over the cells where both are numbers (an exception with fewer than two). For the MOS model the squared RMSE is the mean squared deviation of the votes from the mean of their video, no reconstruction with one number per video has a smaller RMSE, and the squared correlation is the share of the variance of the votes between the videos.", "quantifier": "all files, readers, lists of models and arrays of votes with missing cells", "why_tests_cant": "arrays of every size and content; the optimality is over all reconstructions", "anchors": [{"file": "sureal/routine.py", "symbols": ["run_subjective_models"]}]}
{"id": "C95", "title": "Thurstone scores are the unique optimum of the likelihood", "statement": "When the search of THURSTONE_MLE ends at a stationary point of the likelihood (as every local optimum is) and all videos are linked by comparisons, the reported scores are the only best ones up to a shift, among all scores that are at most four standard deviations apart. (Beyond that the function is not convex, because a constant is added to the probabilities, and if a video never loses there is no optimum: refuted.)", "quantifier": "all numbers of videos, all tables of comparisons, all competing scores", "why_tests_cant": "global optimality over all real score vectors", "anchors": [{"file": "sureal/pc_subjective_model.py", "symbols": ["ThurstoneMlePairedCompSubjectiveModel.resolve_model", "ThurstoneMlePairedCompSubjectiveModel.neg_log_likelihood_function"]}]}
{"id": "C96", "title": "Mean opinion scores of synthetic data are unbiased", "statement": "For votes generated by the synthetic reader from given qualities, biases, inconsistencies and content parameters, the score of the MOS model has expectation quality plus mean bias plus content bias, its variance is the mean vote variance divided by the number of observers, and the expected square of the reported standard error is that variance plus the spread of the biases divided by the number of observers, hence exact on average if and only if all observers have the same bias and otherwise too large.", "quantifier": "all datasets, all parameters, every law of the draws with mean 0, variance 1 and no correlation", "why_tests_cant": "expectation over a continuous law of the random draws", "anchors": [{"file": "sureal/dataset_reader.py", "symbols": ["SyntheticRawDatasetReader.opinion_score_3darray"]}, {"file": "sureal/subjective_model.py", "symbols": ["MosModel._run_modeling"]}]}
{"id": "C97", "title": "Opinion scores from a random part of the observers are unbiased", "statement": "get_sample_stats with a fraction f uses the largest number k of observers that is at most f times their number; if no vote is missing, the opinion score from the k drawn observers is on average the score from all observers and its mean squared deviation is the variance of the observers' votes divided by k times (S-k)/(S-1). (For datasets in list style the claim is refuted when observers are left out, since drawn observers beyond the first k have no votes; the names reported are those of all observers.)", "quantifier": "all datasets without missing votes, all fractions, the uniform law on all orders of the observers", "why_tests_cant": "average over all orders of an arbitrary number of observers", "anchors": [{"file": "sureal/routine.py", "symbols": ["get_sample_stats"]}, {"file": "sureal/dataset_reader.py", "symbols": ["SelectSubjectRawDatasetReader"]}]}
{"id": "C98", "title": "Validation with synthetic votes compares all models on the same votes", "statement": "validate_with_synthetic_dataset refuses probabilities of missing votes below 0 or from 1 on; with a seed all models are run on the same synthetic votes, from which those drawn as missing are removed, and the output file has exactly these votes; the results have one entry per TYPE, of the last model of this TYPE, and with distinct TYPEs the percentages beside it are the coverage of the true values by its own confidence intervals. (Without a seed, and with the logistic reader without missing votes, which ignores the seed, the claim that the votes are the same is refuted.)", "quantifier": "all datasets, true parameters, lists of models, random numbers, seeds and probabilities", "why_tests_cant": "a seedless run needs two readings with different draws to show that the votes compared are different", "anchors": [{"file": "sureal/routine.py", "symbols": ["validate_with_synthetic_dataset"]}, {"file": "sureal/dataset_reader.py", "symbols": ["SyntheticRawDatasetReader", "SyntheticLogisticRawDatasetReader", "MissingDataRawDatasetReader"]}]}
{"id": "C99", "title": "The passes of the Bradley-Terry model converge to the maximum likelihood estimate, which exists exactly under Ford's condition", "statement": "for videos linked by comparisons there is a maximum likelihood estimate if and only if a chain of wins leads from every video to every other, and there is at most one; under this condition the vectors of the successive passes of the BT_MLE model converge to it. (That the reported vector is close to the estimate is refuted: the passes can be so small that the model stops after the first one.)", "quantifier": "all tables of non-negative wins of any number of videos", "why_tests_cant": "a statement about limits and about all tables; the slow tables need more comparisons than any test has", "anchors": [{"file": "sureal/pc_subjective_model.py", "symbols": ["BradleyTerryMlePairedCompSubjectiveModel"]}]}
{"id": "C100", "title": "The numerical inverse of a monotone function maps its values back, and refuses values that are not taken", "statement": "inversefunc of a strictly monotone function, on a domain whose ends may be missing, included or excluded, returns a callable that maps every value of the function to its argument, if the minimisation finds the zero of a function falling towards it from both sides; on a closed interval a continuous function gives ValueError for exactly the requests with a value that is not taken; malformed or unordered limits and constant functions give ValueError. (Without a domain the claim is refuted: the square is accepted as monotone and values that are never taken get an inverse.)", "quantifier": "all strictly monotone functions, domains, images, lists of requested values and minimisers with the stated contract", "why_tests_cant": "open and half-open domains, decreasing functions and values at the ends take different branches; the refusal of values is a statement about all of them", "anchors": [{"file": "sureal/tools/inverse.py", "symbols": ["inversefunc", "_normparams_inversefunc", "_get_valid_refpoints", "_auto_ymin", "_auto_ymax"]}]}
{"id": "C101", "title": "The convolution of two densities on a grid", "statement": "ConvolveTwoPdf.pdf is, at the points of the grid, the convolution of the trapezoidal masses of the two densities, between them the linear interpolation and outside the product of the truncation values; it is never negative for densities, symmetric in them, its masses sum to at most the product of the two total masses, and later calls use the same table. (That the convolution of even densities is even, and that densities whose truncation value is taken on both sides of 0 are handled, are refuted.)", "quantifier": "all pairs of functions, steps, truncation values and arguments", "why_tests_cant": "the table has thousands of entries; the shift of half the length and the last cell only show in sums over all pairs of cells", "anchors": [{"file": "sureal/tools/stats.py", "symbols": ["ConvolveTwoPdf"]}]}
{"id": "C102", "title": "The passes of the P.910 solver climb the likelihood", "statement": "With at least one vote per video and per observer, every pass of the alternating projection leads to quality scores and biases whose likelihood (under the best variance per observer, each variance enlarged by 10^-8 as in the code) is at least as large as before, and larger unless the scores stay the same; so a run never reports a worse fit than the mean opinion scores with the biases against them. The changes of the scores tend to 0, so the loop would end without the limit of 1000 passes; a pass changes nothing exactly at the stationary points of the likelihood, every accumulation point of the passes is one, and without missing votes there is one. (That the stationary point is the best fit is refuted.)", "quantifier": "all arrays of votes with missing entries and repetitions, all numbers of passes, both formulas for the standard deviation", "why_tests_cant": "monotonicity and the limit are statements about infinitely many passes on all data; a run only shows the numbers it ends with", "anchors": [{"file": "sureal/subjective_model.py", "symbols": ["SubjectMLEModelProjectionSolver._run_modeling"]}]}
{"id": "C103", "title": "histc, get_cdf and get_pdf describe the distribution of the data", "statement": "histc returns one entry for each number of the series, its number of occurrences, without the NaNs. get_cdf returns, at equally spaced edges up to the maximum, the fraction of the data that are at most the edge; the last value is 1. get_pdf with density is not negative and integrates to 1, and its value is the fraction of the data in the bin over its width, at the midpoint of the bin; without density the counts add up to the number of data. A datum that is not finite, or no bins, is a ValueError.", "quantifier": "all series, all numbers of bins", "why_tests_cant": "a test looks at one series; data on the edges of the bins are easily missed", "anchors": [{"file": "sureal/tools/stats.py", "symbols": ["histc", "get_cdf", "get_pdf"]}]}
{"id": "C104", "title": "The plots show the votes and the residues of the model", "statement": "The points of the plots raw_counts and raw_counts_per_subject are, for each video (observer) and each value given, the number of observers (videos) with this mean vote, ordered by index and value, and add up to the number of rated pairs; the plots fail exactly if there is no vote. The residue matrices are the mean votes minus quality score (minus bias), missing exactly where there is no vote. With one repetition the residues of MOS add up to 0 for every video, and those of the projection solver with the bias taken off add up to 0 for every observer. The subplots of quality_scores_vs_raw_scores suffice for all observers.", "quantifier": "all arrays of votes with missing entries and repetitions", "why_tests_cant": "plots are not tested beyond running them", "anchors": [{"file": "sureal/routine.py", "symbols": ["run_subjective_models"]}]}
{"id": "C105", "title": "The interval of an observer's inconsistency is a 95% interval", "statement": "The interval reported for the inconsistency v of an observer with n votes runs from v*sqrt(n/d) to v*sqrt(n/c), where c and d are the 2.5% and 97.5% quantiles of the chi-square distribution with n degrees of freedom; it covers the true inconsistency of a normal observer with probability 95%. The interval of the bias reaches 1.95996 standard deviations to either side.", "quantifier": "all numbers of votes, all inconsistencies, all independent normal deviations", "why_tests_cant": "coverage is a statement about the distribution of all votes; a test draws a few", "anchors": [{"file": "sureal/subjective_model.py", "symbols": ["_run_modeling"]}]}
{"id": "C106", "title": "Model objects made from files are independent of each other", "statement": "from_dataset_file gives a model object of the content of its file, restricted to the content and asset ids asked for, or the exception of the file. Its runs work on this content whatever else is loaded; to_aggregated_dataset uses the result of its last run that did not raise, and raises AssertionError before the first.", "quantifier": "all sequences of from_dataset_file, run_modeling and to_aggregated_dataset, all files, all model classes", "why_tests_cant": "the order of operations and the state of sys.modules are not varied by tests", "anchors": [{"file": "sureal/subjective_model.py", "symbols": ["_import_dataset_and_filter", "from_dataset_file", "run_modeling", "to_aggregated_dataset", "_assert_modeled"]}, {"file": "sureal/tools/misc.py", "symbols": ["import_python_file"]}]}
{"id": "C107", "title": "File names are taken apart at the last slash and the last dot", "statement": "get_file_name_with_extension is the part after the last slash; get_file_name_without_extension is that part without its last dot and what follows, if something other than dots comes before; get_file_name_extension is what follows the last dot of the name.", "quantifier": "all paths", "why_tests_cant": "unboundedly many strings; names without a dot below directories with one", "anchors": [{"file": "sureal/tools/misc.py", "symbols": ["get_file_name_with_extension", "get_file_name_without_extension", "get_file_name_extension"]}]}
{"id": "C108", "title": "The plot of winning rates shows the mean outcomes of the comparisons", "statement": "visualize_pc_dataset shows for two videos the mean outcome for the first over the observers who compared them: between 0 and 1, adding up to 1 with the rate of the other order, NaN if nobody compared them. It fails exactly if a comparison is not legal.", "quantifier": "all paired-comparison datasets", "why_tests_cant": "plots are not tested", "anchors": [{"file": "sureal/routine.py", "symbols": ["visualize_pc_dataset"]}]}
{"id": "C109", "title": "Type and version identify a model class", "statement": "The string of type and version differs for different types and versions; a model object can only be made with a version of letters, digits, dots, underscores and hyphens. All model classes of the package pass the check and have different strings.", "quantifier": "all types and versions; all classes of the package", "why_tests_cant": "unboundedly many strings", "anchors": [{"file": "sureal/core/mixin.py", "symbols": ["_assert_type_version", "get_type_version_string"]}]}
{"id": "C110", "title": "The plot of the scores shows for every video its score and its interval", "statement": "The plot of the recovered scores shows for every model the scores of the same videos in the same order: that of the dataset or, with the option, that in which the scores of the first model do not decrease. The error bar at a point is the interval of the video of the point.", "quantifier": "all results of models for the same videos, all plot types, all functions that sort", "why_tests_cant": "plots are not tested; the order of the intervals shows only if they differ between videos", "anchors": [{"file": "sureal/routine.py", "symbols": ["run_subjective_models"]}]}
{"id": "C111", "title": "Models in the plot of the scores are kept apart", "statement": "In the plot of the scores with error bars the points of all models for the video at place j lie between j and j + 1, no two points coincide, different models have different colours, and there is a plot for any number of models.", "quantifier": "all numbers of models and videos", "why_tests_cant": "tests run two or three models and do not look at the plot", "anchors": [{"file": "sureal/routine.py", "symbols": ["run_subjective_models"]}]}
{"id": "C112", "title": "The labels in the plots of biases and of contents name the right observer and content", "statement": "The plot of the ambiguities of contents labels the value of a content with its name; the plot of the biases labels the bias of an observer with the name of this observer. Both plots exist.", "quantifier": "all datasets with names for contents and observers", "why_tests_cant": "plots are not tested; selections of observers never are plotted", "anchors": [{"file": "sureal/routine.py", "symbols": ["run_subjective_models"]}]}
{"id": "C113", "title": "Uncertainties are in the unit of the scores after the final transform", "statement": "After transform_final or normalize_final, which map the scores, the standard errors and the confidence intervals are those of the mapped scores, as when the votes are mapped.", "quantifier": "all arrays of votes with missing ones, all affine maps", "why_tests_cant": "tests of the options compare scores only", "anchors": [{"file": "sureal/subjective_model.py", "symbols": ["_postprocess_model_result", "run_modeling"]}]}
{"id": "C114", "title": "Mean opinion scores of whole votes suffer one rounding only", "statement": "In floating-point arithmetic the score of a video with whole votes is the rounded mean of its votes: it lies within the range of the votes and depends neither on the order of the votes nor on the way they are added up. For votes of any kind the relative error is at most that of one rounding per vote and one more.", "quantifier": "all arrays of votes with missing ones, all roundings that keep the order and whole numbers up to a bound, double precision among them", "why_tests_cant": "the range of inputs; tests compare up to some decimal places", "anchors": [{"file": "sureal/subjective_model.py", "symbols": ["_get_mos_and_stats", "_run_modeling"]}]}
{"id": "C115", "title": "Ambiguities and standard errors are accurate in floating-point arithmetic", "statement": "In floating-point arithmetic the ambiguity and the standard error of a video are, up to one factor 1 + u or 1 - u per vote and a few more, those of the exact formula plus a term for the rounding of the mean. Equal whole votes give exactly 0.", "quantifier": "all arrays of votes with missing ones, all roundings with relative error u", "why_tests_cant": "the range of inputs", "anchors": [{"file": "sureal/subjective_model.py", "symbols": ["_get_mos_and_stats"]}]}
{"id": "C116", "title": "The number of observers drawn is the fraction asked for", "statement": "get_sample_stats with a fraction f draws of n observers the whole part of n f.", "quantifier": "all n, all fractions", "why_tests_cant": "a few fractions are tested", "anchors": [{"file": "sureal/routine.py", "symbols": ["get_sample_stats"]}]}
{"id": "C117", "title": "The program writes the numbers of the models", "statement": "sureal --models MOS writes, for each distorted video of the dataset in its order, the path, the mean of its votes, their standard error and the half widths of the interval, if there are two votes or more, and otherwise fails with ValueError. For any models for opinion scores with different names, a successful run read the dataset from the file, ran each model without options on what the reader took from it, and the numbers in the output under the name of a model are those the model returned, at their positions.", "quantifier": "all readable datasets in Python or JSON, all lists of models with different names", "why_tests_cant": "tests look at the output for one dataset", "anchors": [{"file": "sureal/__main__.py", "symbols": ["main"]}, {"file": "sureal/routine.py", "symbols": ["run_subjective_models", "format_output_of_run_subjective_models"]}]}
{"id": "C118", "title": "The program succeeds on readable datasets", "statement": "For every readable dataset and every choice of the documented models MOS, P910, P913 and BT500, the program writes an output.", "quantifier": "all readable datasets, all lists of documented models", "why_tests_cant": "tests use few datasets", "anchors": [{"file": "sureal/__main__.py", "symbols": ["main"]}, {"file": "sureal/routine.py", "symbols": ["run_subjective_models"]}]}
{"id": "C119", "title": "When the output is JSON", "statement": "The output of the program for the model MOS contains only finite numbers, as JSON demands, if and only if every video has at least two votes.", "quantifier": "all readable datasets with two votes or more", "why_tests_cant": "tests use complete datasets", "anchors": [{"file": "sureal/__main__.py", "symbols": ["main"]}, {"file": "sureal/subjective_model.py", "symbols": ["_get_mos_and_stats"]}]}
{"id": "C120", "title": "The log-likelihoods of MOS and of the projection solvers", "statement": "The log-likelihood that MOS reports is the average over all votes of the logarithm of the normal density at the mean and the variance of the votes on the video; that of the projection solvers the average at score plus bias with the inconsistency as standard deviation. AIC and BIC follow from it.", "quantifier": "all datasets", "why_tests_cant": "the numbers are compared for one dataset", "anchors": [{"file": "sureal/subjective_model.py", "symbols": ["_get_mos_and_stats", "loglikelihood_function", "_run_modeling"]}]}
{"id": "C121", "title": "The intervals of mean opinion scores cover the expected vote", "statement": "If the votes on a video are independent and identically distributed with a finite variance other than zero, the interval that the MOS model reports for the video contains the expected vote with probability 95%.", "quantifier": "all distributions of votes, all numbers of votes, any votes missing", "why_tests_cant": "coverage is a probability; tests compare single intervals", "anchors": [{"file": "sureal/subjective_model.py", "symbols": ["_get_mos_and_stats"]}]}
{"id": "C122", "title": "The validation reports 95% for mean opinion scores", "statement": "If the synthetic votes of validate_with_synthetic_dataset are drawn from independent standard normal numbers, the percentage of true qualities within the intervals of the MOS model that it reports is 95 on average.", "quantifier": "all datasets, true parameters, numbers of observers, lists of models, seeds", "why_tests_cant": "an average over all draws; tests look at one seed", "anchors": [{"file": "sureal/routine.py", "symbols": ["validate_with_synthetic_dataset", "get_ci_percentage"]}, {"file": "sureal/subjective_model.py", "symbols": ["_get_mos_and_stats"]}]}
{"id": "C123", "title": "The scores and biases of the P.910 solver are unbiased", "statement": "If votes are quality plus bias plus noise and the joint distribution of the noise does not change when all signs are changed, then SubjectMLEModelProjectionSolver and its P.910 variant report scores whose expectations are the qualities plus the mean of the biases, and biases whose expectations are the biases minus their mean.", "quantifier": "all numbers of videos, observers and repetitions, qualities, biases, missing votes, distributions of the noise; all synthetic datasets", "why_tests_cant": "an expectation over all draws of an iteration with a random number of passes; tests look at one seed", "anchors": [{"file": "sureal/subjective_model.py", "symbols": ["SubjectMLEModelProjectionSolver"]}, {"file": "sureal/dataset_reader.py", "symbols": ["SyntheticRawDatasetReader"]}]}
{"id": "C124", "title": "The deprecated program writes what its model returned", "statement": "cmd_deprecated returns 2 if and only if it is given fewer than two arguments and otherwise 1 if and only if the model is unknown; else it runs the model on the dataset without options, prints the lists of its result with --print, and writes the whole result to sureal.json with --output-dir. It plots scores of observers and contents if and only if the model returned them.", "quantifier": "all command lines, datasets and models", "why_tests_cant": "needs all models and all positions of the options; tests call the functions and not the program", "anchors": [{"file": "sureal/cmd_deprecated.py", "symbols": ["main"]}, {"file": "sureal/tools/misc.py", "symbols": ["get_cmd_option"]}, {"file": "sureal/tools/misc.py", "symbols": ["cmd_option_exists"]}]}
{"id": "C125", "title": "The maximum likelihood models follow every change of order, zero, direction and unit of the scale", "statement": "For the three maximum likelihood models: reordering videos and observers and adding a number to all votes on a video reorders and moves the qualities, reorders biases and inconsistencies, and leaves ambiguities, numbers of passes, log likelihood, AIC and BIC unchanged (a nonzero number with the Gaussian density, and with the method 'simplified' while the variances stay positive). Replacing all votes by their negatives negates qualities and biases and changes nothing else (Gaussian density). Multiplying votes and stop threshold by a positive number multiplies all parameters and standard deviations by it (methods 'simplified' and 'original'). The exceptions are the same.", "quantifier": "all datasets with any missing votes, permutations, offsets, factors, gradient methods, thresholds, modes", "why_tests_cant": "relates two runs of an iteration of up to 10000 passes for all pairs of inputs", "anchors": [{"file": "sureal/subjective_model.py", "symbols": ["MaximumLikelihoodEstimationModel"]}, {"file": "sureal/subjective_model.py", "symbols": ["MaximumLikelihoodEstimationModelContentOblivious"]}, {"file": "sureal/subjective_model.py", "symbols": ["MaximumLikelihoodEstimationModelSubjectOblivious"]}]}
{"id": "C126", "title": "The errors of the qualities estimated by the maximum likelihood models have a symmetric distribution", "statement": "Votes are true qualities plus noise, with any votes missing, and the joint distribution of the noise does not change when all its signs are changed. Then for the three maximum likelihood models the joint distribution of the errors of the reported qualities is symmetric, and so is that of the reported biases: every quality is reported too high exactly as often as too low, and where its expectation exists it is the true quality. (Gaussian density; with the method 'simplified' while the variances stay positive almost surely.)", "quantifier": "all true qualities, patterns of missing votes, symmetric joint distributions of the noise (not necessarily independent, normal or finite), gradient methods, thresholds, modes", "why_tests_cant": "a statement about a distribution of outcomes of an iteration; a simulation estimates it for single settings only", "anchors": [{"file": "sureal/subjective_model.py", "symbols": ["MaximumLikelihoodEstimationModel"]}, {"file": "sureal/subjective_model.py", "symbols": ["MaximumLikelihoodEstimationModelContentOblivious"]}, {"file": "sureal/subjective_model.py", "symbols": ["MaximumLikelihoodEstimationModelSubjectOblivious"]}]}
{"id": "C127", "title": "A maximum likelihood model fits one set of votes", "statement": "The maximum likelihood models take the votes from the reader, and take them again to compute the mean opinion scores from which the iterations start. With a seed, both readings give the same votes, and the validation with synthetic votes returns the run of the model on these votes. Only the starting point depends on the second reading. (The full claim, one set of votes per run, fails for readers that draw the votes anew at each reading.)", "quantifier": "all readers, first and second readings, seeds, modes, options, lists of models before the one considered", "why_tests_cant": "tests use readers that return the same array each time, or compare with tolerances", "anchors": [{"file": "sureal/subjective_model.py", "symbols": ["MaximumLikelihoodEstimationModel._run_modeling"]}, {"file": "sureal/routine.py", "symbols": ["validate_with_synthetic_dataset"]}, {"file": "sureal/dataset_reader.py", "symbols": ["SyntheticRawDatasetReader.opinion_score_3darray"]}]}
{"id": "C128", "title": "When a maximum likelihood model stops by its threshold, its parameters are near the maximum of the likelihood given the others", "statement": "A run that stops by its threshold reports qualities at a distance less than nine times the threshold from the weighted means of the votes less the biases, i.e. from the qualities that maximise the likelihood for the other reported parameters. (The same does not hold for the biases, on whose movement the threshold does not depend.)", "quantifier": "all votes and patterns of missing votes with at least one vote per video, three modes, analytic gradient methods, thresholds, numbers of passes below 10000, provided the reported parameters are numbers and give every vote a positive variance", "why_tests_cant": "the distance to the maximum at the end of an iteration is not observable in a test, which only sees the final numbers", "anchors": [{"file": "sureal/subjective_model.py", "symbols": ["MaximumLikelihoodEstimationModel._run_modeling"]}]}
{"id": "C129", "title": "From votes without noise the maximum likelihood model recovers the qualities and the biases", "statement": "Every observer votes on every video, and each vote is the quality of the video plus the bias of the observer. Then the maximum likelihood model reports the qualities plus the mean bias, inconsistency 0, and for each observer the deviation from the mean bias. (The qualities and inconsistencies are exact, but of the deviations only one tenth is reported: the model stops after the first pass.)", "quantifier": "all numbers of videos, observers, repetitions and contents, all qualities, all biases that are not all equal and none of which is exactly 10/9 standard deviations from the mean, all positive thresholds, analytic gradient methods", "why_tests_cant": "tests compare with recorded numbers of one noisy dataset", "anchors": [{"file": "sureal/subjective_model.py", "symbols": ["MaximumLikelihoodEstimationModel._run_modeling"]}]}
{"id": "C130", "title": "The plots of the validation show what is returned", "statement": "Asking validate_with_synthetic_dataset for plots does not change what it returns. Every panel that is asked for pairs, for each model that reports the quantity, the true value and the estimate of each video or observer; the label holds the root mean squared difference of these points and, with error bars, the percentage of coverage that is returned. (The panels of the observers cut off the longer of two lists of different lengths, and the plots can make the run fail: a negative error bar is refused by matplotlib from version 3.4 on.)", "quantifier": "all lists of models, panels, true values, options and both kinds of readers", "why_tests_cant": "the tests draw the plots without looking at them", "anchors": [{"file": "sureal/routine.py", "symbols": ["validate_with_synthetic_dataset"]}, {"file": "sureal/perf_metric.py", "symbols": ["RmsePerfMetric"]}]}
{"id": "C131", "title": "The scatter plots that compare models show the scores of both", "statement": "plot_scatter_target_vs_compared_models gives one figure per dataset. The panel of the i-th compared model has one point per video: the score of the i-th target model and the score of the compared model for the same video, each as the model finds it alone from its fraction of the observers. The title holds the mean and standard deviation of the differences (mean^2 + std^2 is the mean squared difference) and the two correlations. With a seed, a model compared with itself from the same fraction gives the diagonal, differences of zero and correlations of 1, and the observers of a smaller fraction are among those of a larger one. Mean opinion scores of some observers differ from those of all by zero on average over the draws. All models given are shown, and the percentages on the axes are the fractions. (Refuted: the models beyond the length of the shorter list are run and not shown; 0.29 is printed as 28%.)", "quantifier": "all datasets, lists of models, fractions, orders of drawing", "why_tests_cant": "the tests call it on one dataset and look at no number", "anchors": [{"file": "sureal/routine.py", "symbols": ["plot_scatter_target_vs_compared_models"]}, {"file": "sureal/routine.py", "symbols": ["_get_sample_stats_wrapper"]}]}
{"id": "C132", "title": "The plots of recovered scores against votes show all points", "statement": "The plot quality_scores_vs_raw_scores has a subplot for every observer, in their order and numbered from 1, with one point for every video: the observer's mean vote against the score of the model. Both axes run from the smallest to the largest mean vote, and the points of all videos the observer has rated lie within the axes. (Proved for mean opinion scores; refuted for models that correct for the observers, whose scores can exceed all votes.)", "quantifier": "all votes with missing ones and repetitions, all numbers of observers and videos", "why_tests_cant": "the tests draw the plot without looking at it", "anchors": [{"file": "sureal/routine.py", "symbols": ["run_subjective_models"]}]}
{"id": "C133", "title": "Figures have a bounded size", "statement": "Images of matrices get a figure that is larger than 2 by 2 and at most 102 by 102 inches, with the proportions of the matrix apart from the margin of 2; up to 3000 rows and columns there are 30 cells per inch. Plots over videos or observers are at least 10 wide, 3 high, and as wide as the root of the number plus 2 from 64 on. (Refuted: the bound of the images is 202.)", "quantifier": "all numbers of rows, columns, videos and observers", "why_tests_cant": "the tests draw small matrices only", "anchors": [{"file": "sureal/routine.py", "symbols": ["_get_imshow_width_and_height"]}, {"file": "sureal/routine.py", "symbols": ["_get_plot_width_and_height"]}]}
{"id": "C134", "title": "A validation depends on the generator only through its votes", "statement": "validate_with_synthetic_dataset draws from numpy's one global generator. For models that draw nothing themselves it behaves, from any state of the generator, like a validation in which every reading of the votes has a stream of draws of its own. A bootstrapping model (MLE_BSTP, MLE_CO_BSTP) is run on the synthetic dataset: its estimates and the intervals around them come from the same votes, and another seed before the validation gives other votes to all models. (Proved with a seed in the input: what is reported is the run on the synthetic dataset, up to the list of observers. Refuted without: the intervals come from a third reading of the votes, so their widths can be negative and miss correct estimates. Refuted for the models after a bootstrapping one, which resets the generator: their results do not depend on the state before the validation at all.)", "quantifier": "all generators, states, datasets, true values, lists of models and options", "why_tests_cant": "the tests validate with fixed seeds and accept the numbers that come out", "anchors": [{"file": "sureal/routine.py", "symbols": ["validate_with_synthetic_dataset"]}, {"file": "sureal/experimental.py", "symbols": ["MaximumLikelihoodEstimationModelWithBootstrapping"]}, {"file": "sureal/dataset_reader.py", "symbols": ["SyntheticRawDatasetReader"]}]}
{"id": "C135", "title": "The script that checks confidence intervals checks them against the truth", "statement": "resource/script/run_synthetic_validate_ci.py makes synthetic votes with known true values and reports how many confidence intervals contain them. The true values have the documented sizes and ranges, the biases add up to zero, the derived standard deviations are those of the mean opinion scores. Every call gives the same outcome for the same seed, and the ten runs do not influence each other. The percentages printed are those of the single runs, the average is their mean, and for the MOS model it is 95 in expectation. The true values that a run returns can be used to repeat it. (Refuted: the expected average is below 95, because the intervals use a normal quantile with an estimated standard deviation; and a run with the returned true values and the same seed has other votes.)", "quantifier": "all generators, seeds, datasets, classes of models and arguments", "why_tests_cant": "the script is not run by the tests, and a run with ten seeds shows ten numbers", "anchors": [{"file": "resource/script/run_synthetic_validate_ci.py", "symbols": ["validate_with_synthetic_dataset_quality_wrapper"]}, {"file": "resource/script/run_synthetic_validate_ci.py", "symbols": ["run_synthetic_validate_mos"]}]}
{"id": "C136", "title": "Standard deviations reported by the P.910 solver", "statement": "The alternating projection models report standard deviations of scores, biases and inconsistencies that are those of the theory of maximum likelihood: for P910 the inverse root of the negative second derivative of the log-likelihood at the reported values. In closed form a bias has its observer's inconsistency divided by the root of the number of votes, a score the inverse root of the sum of inverse squared inconsistencies of its votes. The second solver takes the spread of the residuals of a video instead.", "quantifier": "all arrays of votes with missing votes, all options without final transformations", "why_tests_cant": "the tests compare a few numbers on one dataset", "anchors": [{"file": "sureal/subjective_model.py", "symbols": ["SubjectMLEModelProjectionSolver"]}, {"file": "sureal/subjective_model.py", "symbols": ["SubjectMLEModelProjectionSolverAltSubjStdMixin"]}]}
{"id": "C137", "title": "Neither silent observers nor copies of the whole panel change the estimates of the P.910 solver", "statement": "If every observer of a panel is repeated m times, and any number of observers without votes is added, the P.910 solver and its second variant find the same scores in the same number of passes, or fail with the same exception. Copies get the biases and inconsistencies of their originals, silent observers get no estimate and an infinite standard deviation. The standard deviations of the scores are divided by the root of m. Mean opinion scores stay the same too, but their standard errors shrink by more than the root of m.", "quantifier": "all arrays of votes with missing votes, all numbers of copies, all positions of the copies and of the silent observers", "why_tests_cant": "the tests never compare two panels of different sizes", "anchors": [{"file": "sureal/subjective_model.py", "symbols": ["SubjectMLEModelProjectionSolver"]}, {"file": "sureal/subjective_model.py", "symbols": ["SubjectMLEModelProjectionSolver2"]}, {"file": "sureal/subjective_model.py", "symbols": ["MosModel"]}]}
{"id": "C138", "title": "Neither silent observers nor copies of the whole panel change the estimates of the maximum likelihood models", "statement": "If every observer of a panel is repeated m times, and any number of observers without votes is added, the maximum likelihood models fail with the same exception or find the same qualities and ambiguities in the same number of passes, with the same log-likelihood per vote. Copies get bias, inconsistency and their standard deviations from their originals, silent observers get NaN. The standard deviations of qualities and ambiguities are divided by the root of m.", "quantifier": "all arrays of votes with missing votes, the three modes, all gradient methods and densities, all numbers and positions of copies", "why_tests_cant": "the tests never compare two panels of different sizes", "anchors": [{"file": "sureal/subjective_model.py", "symbols": ["MaximumLikelihoodEstimationModel"]}, {"file": "sureal/subjective_model.py", "symbols": ["MaximumLikelihoodEstimationModelContentOblivious"]}, {"file": "sureal/subjective_model.py", "symbols": ["MaximumLikelihoodEstimationModelSubjectOblivious"]}]}
{"id": "C139", "title": "The program reports the scores of the models for paired comparisons", "statement": "With models for paired comparisons the program reads the dataset, computes the table of points from the records, and reports for every video, under every model named on the command line, the score, its standard deviation and its interval.", "quantifier": "all datasets of paired comparisons in Python or JSON files, all lists of models for paired comparisons", "why_tests_cant": "the tests call the models directly; the program is never run with a model for paired comparisons", "anchors": [{"file": "sureal/__main__.py", "symbols": ["main"]}, {"file": "sureal/routine.py", "symbols": ["run_subjective_models"]}, {"file": "sureal/pc_subjective_model.py", "symbols": ["_run_modeling"]}]}
{"id": "C140", "title": "The text the program writes is JSON and loses nothing", "statement": "What the program prints, or writes to output.json, is a JSON text (RFC 8259) for the output: names are escaped, brackets closed, numbers are JSON numbers. Different outputs have different texts.", "quantifier": "all outputs of the formatting, all strings as names, all models of opinion scores, all datasets", "why_tests_cant": "the tests read the dictionary, never the text; names with quotation marks, control characters or characters beyond the first plane, and scores that are not finite, do not occur", "anchors": [{"file": "sureal/__main__.py", "symbols": ["main"]}, {"file": "sureal/routine.py", "symbols": ["format_output_of_run_subjective_models"]}]}
{"id": "C141", "title": "The program writes the whole output or leaves the file as it was", "statement": "With --output-dir, the program either ends without an error and output.json holds the whole text of the output, or it ends with an error and output.json is what it was before. With least squares (LS) the scores in it are the means of the votes if every observer voted once on every video.", "quantifier": "all datasets, all models of opinion scores, all earlier contents of the file", "why_tests_cant": "the tests of the program look at the exit code of a few runs with MOS and P910; no test runs PERSUBJECT or LS through the program", "anchors": [{"file": "sureal/__main__.py", "symbols": ["main"]}, {"file": "sureal/subjective_model.py", "symbols": ["PerSubjectModel"]}, {"file": "sureal/subjective_model.py", "symbols": ["LeastSquaresModel"]}]}
{"id": "C142", "title": "What all observers agree on, the models agree on", "statement": "If every observer rates one video at most as high as another (lower, or the same), then every model that runs to the end scores the first video at most as high as (lower than, the same as) the second, and so do the numbers the program writes.", "quantifier": "all datasets, all models of opinion scores, all pairs of videos", "why_tests_cant": "the tests compare scores with recorded numbers on a few datasets; an order statement over all panels is not checked, and iterative solvers could break it on some panel", "anchors": [{"file": "sureal/subjective_model.py", "symbols": ["MosModel._run_modeling", "SubjectiveModel._preprocess_model_input", "MaximumLikelihoodEstimationModel._run_modeling", "SubjectMLEModelProjectionSolver._run_modeling", "LegacyMaximumLikelihoodEstimationModel._run_modeling"]}, {"file": "sureal/__main__.py", "symbols": ["main"]}]}
{"id": "C143", "title": "What the P.910 solver computes on complete panels", "statement": "If every observer rated every video in every repetition, the P.910 solver succeeds, whatever the votes. The bias it reports for an observer is the mean of their votes minus the mean of all votes. The score it reports for a video is the mean of all votes plus the mean, weighted with the inverse squares of the reported inconsistencies, of how far the observers' votes on the video are above the means of their votes. The mean of the scores is the mean of all votes. With two observers who voted once on every video, the scores are the mean opinion scores.", "quantifier": "all complete arrays of real votes, of any size", "why_tests_cant": "tests compare an iterated result with recorded numbers on a few datasets; that the iterated biases do not depend on the path of the iteration is a statement about all panels", "anchors": [{"file": "sureal/subjective_model.py", "symbols": ["SubjectMLEModelProjectionSolver._run_modeling", "SubjectMLEModelProjectionSolver2._run_modeling"]}]}
{"id": "C144", "title": "Scores stay on the rating scale", "statement": "If all votes are on a rating scale, all scores a model reports are on this scale, and so are the scores the program writes.", "quantifier": "all datasets with votes between two ends of a scale", "why_tests_cant": "the tests check recorded numbers; that no panel drives a score off the scale is a statement about all panels, and it is false for some models", "anchors": [{"file": "sureal/subjective_model.py", "symbols": ["MosModel._run_modeling", "SubjectiveModel._preprocess_model_input", "SubjectMLEModelProjectionSolver2._run_modeling"]}, {"file": "sureal/__main__.py", "symbols": ["main"]}]}
{"id": "C145", "title": "The output is plain text in every encoding", "statement": "Whatever models are asked for and whatever the names of videos and observers are, what the program prints as its result, and what it leaves in output.json unless it did not touch the file, also if it fails halfway, consists of printable ASCII characters and line ends only; so the encoding output.json is opened with does not matter.", "quantifier": "all datasets, names, lists of models", "why_tests_cant": "the tests use plain names, so an encoder that passes other characters through would go unnoticed", "anchors": [{"file": "sureal/__main__.py", "symbols": ["main"]}]}
{"id": "C146", "title": "Collected test failures give the verdict of an ordinary test", "statement": "A test derived from MyTestCase passes exactly if every assertAlmostEqual compares numbers that are equal or no further apart than delta, or than half a unit in the given decimal place (7 by default), and no other statement raises an exception; this is the verdict of the same test derived from unittest.TestCase; and the report lists every failed comparison before the first exception, in order.", "quantifier": "all sequences of comparisons and other statements, all numbers including NaN and infinities, all tolerances", "why_tests_cant": "the tests are written with this class; a class that swallowed failures would make all of them pass", "anchors": [{"file": "sureal/tools/misc.py", "symbols": ["MyTestCase.assertAlmostEqual"]}, {"file": "sureal/tools/misc.py", "symbols": ["MyTestCase.tearDown"]}]}
{"id": "C147", "title": "A panel without disagreement gets the scores it gave", "statement": "If all who rated a video gave it the same vote, whatever video, every model that reports on the scale of the votes reports these votes as scores, and the program writes them.", "quantifier": "all datasets in which the votes on each video are equal, with missing votes", "why_tests_cant": "tests use recorded votes with disagreement; spreads of zero, by which some of the models divide, do not occur in them", "anchors": [{"file": "sureal/subjective_model.py", "symbols": ["MosModel._run_modeling", "SubjectMLEModelProjectionSolver2._run_modeling", "MaximumLikelihoodEstimationModel._run_modeling"]}, {"file": "sureal/__main__.py", "symbols": ["main"]}]}
{"id": "C148", "title": "More votes bring the estimates to the truth", "statement": "For random votes that are quality plus bias plus noise of mean zero, the estimates go to what they estimate when the panel grows, almost surely: mean opinion scores and their intervals to the expected vote, P.910 scores to quality plus mean bias, P.910 biases to the biases above their mean, inconsistencies to the spreads of the noise.", "quantifier": "all laws of the noise (with the moments each theorem names), all qualities and biases, all growing sequences of panels", "why_tests_cant": "tests run on a fixed number of votes; a limit is no test case", "anchors": [{"file": "sureal/subjective_model.py", "symbols": ["MosModel._run_modeling", "SubjectMLEModelProjectionSolver._run_modeling", "SubjectMLEModelProjectionSolver2._run_modeling"]}]}
{"id": "C149", "title": "One erratic observer does not spoil the scores of P.910", "statement": "On a complete panel of at least three observers, all but one of whom vote quality plus bias, P.910 reports the qualities up to a common shift and an error of at most sqrt(J)/10000, whatever the remaining observer votes; differences of mean opinion scores are off by what this observer is off, divided by the number of observers.", "quantifier": "all panels of three or more observers, all qualities and biases, all votes of the erratic observer up to 10^400", "why_tests_cant": "robustness against any votes of one observer is a statement about an unbounded set of inputs; tests use recorded votes", "anchors": [{"file": "sureal/subjective_model.py", "symbols": ["SubjectMLEModelProjectionSolver._run_modeling", "SubjectMLEModelProjectionSolver2._run_modeling", "MosModel._run_modeling"]}]}
{"id": "C150", "title": "The command line program with plots", "statement": "Asking the command line program for plots does not change the output; each figure is saved as a file of its own beside it, showing the votes, scores, biases and inconsistencies of the models that were run; files that are not part of the run are left alone; a run that fails touches no file.", "quantifier": "all datasets, lists of models, choices of plots and contents of the output directory", "why_tests_cant": "the tests run the program with two models and one plot on three datasets and look at the exit code only", "anchors": [{"file": "sureal/__main__.py", "symbols": ["main"]}, {"file": "sureal/routine.py", "symbols": ["run_subjective_models"]}, {"file": "sureal/config.py", "symbols": ["DisplayConfig.show"]}]}
{"id": "C151", "title": "Models of opinion scores on paired comparisons", "statement": "On a dataset of paired comparisons the mean opinion score of a video is the share of its comparisons that it won, and a video that won more of its comparisons has a higher score.", "quantifier": "all datasets of paired comparisons in either way of recording, any number of videos and subjects", "why_tests_cant": "the test of the command line runs MOS and P910 on a dataset of paired comparisons and looks at the exit code only", "anchors": [{"file": "sureal/__main__.py", "symbols": ["main"]}, {"file": "sureal/dataset_reader.py", "symbols": ["RawDatasetReader.opinion_score_3darray", "PairedCompDatasetReader.opinion_score_3darray"]}, {"file": "sureal/subjective_model.py", "symbols": ["MosModel._run_modeling", "SubjectMLEModelProjectionSolver2._run_modeling"]}]}
{"id": "C152", "title": "The command line program for paired comparisons with plots", "statement": "With models for paired comparisons, asking the command line program for plots does not change the output; the picture of the raw data shows the votes of each subject, the picture of the scores shows the scores and intervals of each model, the picture of the observers shows the observers.", "quantifier": "all datasets of paired comparisons, lists of models, choices of plots and contents of the output directory", "why_tests_cant": "no test runs the program with a model for paired comparisons", "anchors": [{"file": "sureal/__main__.py", "symbols": ["main"]}, {"file": "sureal/routine.py", "symbols": ["run_subjective_models"]}, {"file": "sureal/config.py", "symbols": ["DisplayConfig.show"]}]}
{"id": "C153", "title": "More paired comparisons bring the Bradley-Terry strengths to the truth", "statement": "If the observers' tables of wins are independent and identically distributed and follow the Bradley-Terry law with some strengths, and the design links all videos, then almost surely, as the number of observers grows, the maximum likelihood estimate exists, the passes of BT_MLE converge to it, and it goes to the true strengths; so does the reported vector. (The last part is refuted: the model stops when a pass moves the vector little, and there are designs in which it reports equal strengths for any number of observers; it holds for two videos.)", "quantifier": "all numbers of videos, strengths, linked designs, probability spaces", "why_tests_cant": "almost sure limits over an unbounded number of random observers", "anchors": [{"file": "sureal/pc_subjective_model.py", "symbols": ["BradleyTerryMlePairedCompSubjectiveModel"]}]}
{"id": "C154", "title": "The cached comparison of models is the comparison itself", "statement": "A call of _get_sample_stats_wrapper_persistent returns what _get_sample_stats_wrapper would return at that moment, after any series of earlier calls. (Refuted: the key is made of the arguments only, so a call returns the results for the old content after the file of the dataset was edited, and repeats the first draw of observers if no seed is given; a result that cannot be written as JSON makes every later call fail. It holds if the file did not change and the draw is determined. In general the value of the first call with the key that had one is returned.)", "quantifier": "all series of calls, datasets, worlds changing between calls, caches", "why_tests_cant": "the cache outlives the process and the tests never call the cached variant", "anchors": [{"file": "sureal/routine.py", "symbols": ["_get_sample_stats_wrapper_persistent"]}, {"file": "sureal/tools/decorator.py", "symbols": ["persist_to_dir"]}]}
{"id": "C155", "title": "The program runs what the command line names", "statement": "The program takes the words of the command line if and only if they spell its options, in any order, by their names or by beginnings that belong to one option only, with values after a blank or after '=', among them --dataset and --models; then it uses every model and plot that is named. Other words end it with code 0 (help) or 2 before anything is read. A run with another code than 0 writes nothing, a run with code 0 writes to the directory in --output-dir only. (Refuted in part: of several --models, --dataset or --output-dir only the last one counts, the models of the others are dropped without a message.)", "quantifier": "all command lines, datasets, directories, versions of Python that differ on negative numbers and text attached to -h", "why_tests_cant": "the tests run four fixed command lines with each option given once and in full", "anchors": [{"file": "sureal/__main__.py", "symbols": ["main"]}]}
{"id": "C156", "title": "Screening observers does not depend on how the votes are written down", "statement": "SR_MOS (BT500) rejects the same observers, with the same statistics, and gives the scores on the new scale, when videos, observers and repeated votes come in another order, when the votes on each video are told in another unit and from another zero, and when the scale is turned round; BR_SR_MOS (P913) likewise with one unit for all videos; and who survives the screening survives a second one. (Refuted in part: a second screening of the remaining panel can reject another observer, whom the first one masked, and change the scores.)", "quantifier": "all arrays of votes with any votes missing, all permutations, all units and zeros; one witness on a scale from 1 to 5", "why_tests_cant": "the tests run each model on one dataset in one order on one scale, and never screen what a screening left", "anchors": [{"file": "sureal/subjective_model.py", "symbols": ["_get_opinion_score_3darray_with_preprocessing"]}, {"file": "sureal/subjective_model.py", "symbols": ["SubjrejMosModel"]}, {"file": "sureal/subjective_model.py", "symbols": ["BiasremvSubjrejMosModel"]}]}
{"id": "C157", "title": "BT.500 rejects an observer who is far from all others", "statement": "If on every video all observers agree except one, who is off, about as often up as down, then SR_MOS (BT500) rejects exactly this observer and the scores are the votes of the others. (Refuted in part: this holds for exactly 5 and for at least 21 observers. With 2 to 4 or 6 to 20 observers the dissenter is kept however far off they are and the scores are off by any amount. In general, nobody is rejected with at most four votes on each video, or at most twenty with a kurtosis outside 2 to 4, unless all votes on a video agree; and nobody is rejected whose outliers are all on one side.)", "quantifier": "all numbers of observers and videos, all votes, all deviations", "why_tests_cant": "the tests run the screening on one dataset with 26 observers, five of them corrupted, and compare mean and variance of the scores", "anchors": [{"file": "sureal/subjective_model.py", "symbols": ["_get_opinion_score_3darray_with_preprocessing"]}, {"file": "sureal/subjective_model.py", "symbols": ["SubjrejMosModel"]}]}
{"id": "C158", "title": "The correlation rules reject an observer who uses the scale the wrong way round", "statement": "If all observers but one, at least two, vote alike and the one votes a decreasing affine function of their votes (slope -b), SR_MOS with the pearson or spearman rule rejects exactly this observer and the scores are the votes of the others. (Refuted in part: this holds for b < S - 1 with S observers. For b > S - 1 nobody is rejected and the order of the scores is the reverse of the order the others see, for instance with three observers voting 2 and 3 and one voting 5 and 1. For b = S - 1 every score is NaN and nobody is flagged.)", "quantifier": "all numbers of observers and videos, all votes of the majority that are not all the same, all offsets and slopes of the reversed observer, both rules", "why_tests_cant": "no test runs the pearson or the spearman rule", "anchors": [{"file": "sureal/subjective_model.py", "symbols": ["_get_opinion_score_3darray_with_preprocessing"]}, {"file": "sureal/subjective_model.py", "symbols": ["SubjrejMosModelPearson"]}, {"file": "sureal/subjective_model.py", "symbols": ["SubjrejMosModelSpearman"]}]}
{"id": "C159", "title": "Of two camps P.910 follows the larger one", "statement": "On a complete panel without noise (everybody votes quality plus bias), in which the videos look different by d to the observers of one camp: if this camp is smaller than half, P.910 reports the qualities the larger camp sees, all shifted by the same number, with an error below 4n/10^8 (1 + sqrt(J)/s) + sqrt(J) s r^2001, where J is the number of videos, n of observers, s the standard deviation of d and r < 1 the ratio of the sizes of the camps; the smaller camp has no influence however near to half it is. If the camps are of the same size it reports the mean opinion scores exactly, halfway. The mean opinion scores give each camp its share.", "quantifier": "all numbers of observers, videos and repetitions, all qualities, biases, differences of opinion and camps, all ways to compute the standard deviation of the scores", "why_tests_cant": "the tests run the solver on a few fixed datasets of real and synthetic votes and compare rounded numbers", "anchors": [{"file": "sureal/subjective_model.py", "symbols": ["SubjectMLEModelProjectionSolver"]}, {"file": "sureal/subjective_model.py", "symbols": ["MosModel"]}]}
{"id": "C160", "title": "Removing biases does not change whom the correlation rules reject, and the rejected do not count", "statement": "BR_SR_MOS_PCC and BR_SR_MOS_SRCC reject the same observers, for the same agreements, as SR_MOS_PCC and SR_MOS_SRCC. Their scores are those of the other model less one number, the same for all videos. The votes of rejected observers have no influence on the scores.", "quantifier": "all complete datasets with the same number of votes of every observer on every video, both correlation rules", "why_tests_cant": "the tests run each of the two models on one dataset and compare rounded means and variances of the scores and biases; no test compares the rejections of two models or changes the votes of a rejected observer", "anchors": [{"file": "sureal/subjective_model.py", "symbols": ["BiasremvSubjrejMosModelPearson"]}, {"file": "sureal/subjective_model.py", "symbols": ["BiasremvSubjrejMosModelSpearman"]}, {"file": "sureal/subjective_model.py", "symbols": ["SubjectiveModel"]}]}
{"id": "C161", "title": "Of two camps that use the scale opposite ways the correlation rules reject the smaller one", "statement": "If a camp of the observers votes on a reversed scale with slope beta and the others vote alike, then SR_MOS_PCC and SR_MOS_SRCC reject the smaller camp entirely and nobody else, and report the votes of the larger one.", "quantifier": "all numbers of observers and videos, all camps, qualities and reversed scales, both correlation rules", "why_tests_cant": "the tests run each rule on one dataset, with five observers whose votes are shuffled, and compare rounded numbers; a camp of reversed observers does not occur", "anchors": [{"file": "sureal/subjective_model.py", "symbols": ["SubjrejMosModelPearson"]}, {"file": "sureal/subjective_model.py", "symbols": ["SubjrejMosModelSpearman"]}, {"file": "sureal/subjective_model.py", "symbols": ["SubjectiveModel"]}]}
{"id": "C162", "title": "The command line program runs the models for paired comparisons it is asked for", "statement": "From the words of a command line that names a dataset of paired comparisons, models for them and plots, in any order, the program ends with code 0, writes the output of the models to output.json in the directory asked for and each plot as a picture, or shows them on the screen if no directory is given; a command line it does not understand, or a run that fails, touches no file.", "quantifier": "all command lines, datasets, models for paired comparisons, plots and contents of the directories", "why_tests_cant": "no test runs __main__ with a model for paired comparisons; the tests of the program start it with fixed words and models for opinion scores", "anchors": [{"file": "sureal/__main__.py", "symbols": ["main"]}, {"file": "sureal/routine.py", "symbols": ["run_subjective_models"]}, {"file": "sureal/pc_subjective_model.py", "symbols": ["PairedCompSubjectiveModel"]}]}
{"id": "C163", "title": "A higher vote for a video does not lower its score", "statement": "If one vote of a dataset is replaced by a higher one, the score that MOS, BR_MOS, ZS_MOS, SR_MOS_PCC or SR_MOS_SRCC gives to the video of this vote does not fall.", "quantifier": "all datasets with any missing and repeated votes, all votes and higher votes", "why_tests_cant": "the tests compare rounded scores of fixed datasets; none compares two datasets that differ in one vote", "anchors": [{"file": "sureal/subjective_model.py", "symbols": ["MosModel"]}, {"file": "sureal/subjective_model.py", "symbols": ["BiasremvMosModel"]}, {"file": "sureal/subjective_model.py", "symbols": ["ZscoringMosModel"]}, {"file": "sureal/subjective_model.py", "symbols": ["SubjrejMosModelPearson"]}, {"file": "sureal/subjective_model.py", "symbols": ["SubjrejMosModelSpearman"]}, {"file": "sureal/subjective_model.py", "symbols": ["SubjectiveModel"]}]}
{"id": "C164", "title": "The package's paths lead where their parts lead, and stay below its root", "statement": "A path built by SurealConfig leads where one gets by following its components one after the other from the root of the package, the workspace, the workdir, the resources or the test resources. It stays below the root. Different names are different places: no figure overwrites another or the output, and no two cached results share a file.", "quantifier": "all locations of the package, all components, all figure numbers, formats and hashes; the first sentence for all file systems with any links", "why_tests_cant": "the tests use the paths of one installation with a few fixed names", "anchors": [{"file": "sureal/config.py", "symbols": ["SurealConfig"]}, {"file": "sureal/config.py", "symbols": ["DisplayConfig"]}, {"file": "sureal/tools/decorator.py", "symbols": ["persist_to_dir"]}]}
{"id": "C165", "title": "One more vote pulls a mean opinion score towards itself and narrows its interval", "statement": "If a vote is added on a video with n votes, its mean opinion score moves towards the vote by 1/(n+1) of the distance, and no other score changes. The interval of the score becomes narrower.", "quantifier": "all datasets with any missing and repeated votes, all added votes", "why_tests_cant": "the tests use fixed datasets; none compares the results before and after a vote is added", "anchors": [{"file": "sureal/subjective_model.py", "symbols": ["MosModel"]}]}
{"id": "C166", "title": "An additional win raises the winner and lowers the loser", "statement": "If one or more wins of a video i over a video j are added to the paired comparisons, the Bradley-Terry and Thurstone scores put i farther ahead of j, i loses ground to no video, and no video loses ground to j. The Bradley-Terry strength of i rises and that of j falls.", "quantifier": "all tables of wins that have estimates, all pairs of videos and numbers of additional wins", "why_tests_cant": "the tests compare rounded scores of fixed tables; none compares two tables that differ in one win", "anchors": [{"file": "sureal/pc_subjective_model.py", "symbols": ["BradleyTerryMlePairedCompSubjectiveModel"]}, {"file": "sureal/pc_subjective_model.py", "symbols": ["ThurstoneMlePairedCompSubjectiveModel"]}]}
{"id": "C167", "title": "An additional tie draws two videos together", "statement": "If ties of two videos i and j are added to the paired comparisons, each as half a win for both, and i was ahead of j, then the Bradley-Terry and Thurstone scores leave i ahead of j, but by less; i gains ground on no video, and no video gains ground on j. The Bradley-Terry strength of i falls and that of j rises. If i and j were level, the scores do not change.", "quantifier": "all tables of wins that have estimates, all pairs of videos and numbers of additional ties", "why_tests_cant": "the tests compare rounded scores of fixed tables; none compares two tables that differ in one tie", "anchors": [{"file": "sureal/pc_subjective_model.py", "symbols": ["BradleyTerryMlePairedCompSubjectiveModel"]}, {"file": "sureal/pc_subjective_model.py", "symbols": ["ThurstoneMlePairedCompSubjectiveModel"]}, {"file": "sureal/dataset_reader.py", "symbols": ["PairedCompDatasetReader"]}]}
{"id": "C168", "title": "Two panels that agree on an order keep it together", "statement": "If the observers of two panels are put into one dataset, the mean opinion score of a video is the mean of its two scores weighted by the numbers of votes, and two videos that both panels order the same way are ordered this way by both together, in mean opinion scores and in Bradley-Terry strengths.", "quantifier": "all pairs of panels on the same videos", "why_tests_cant": "the tests run the models on one dataset at a time; none compares the scores of two datasets with those of their union", "anchors": [{"file": "sureal/subjective_model.py", "symbols": ["MosModel"]}, {"file": "sureal/pc_subjective_model.py", "symbols": ["BradleyTerryMlePairedCompSubjectiveModel"]}]}
{"id": "C169", "title": "Votes counted twice leave the scores and narrow the mean opinion score intervals by more than they should", "statement": "If every observer of a dataset is entered twice, the mean opinion scores stay the same and the standard error of a video with n >= 2 votes is multiplied by sqrt((n-1)/(2n-1)), which is less than 1/sqrt(2) unless the error is zero. If every paired comparison is counted c > 0 times, the Bradley-Terry strengths stay the same.", "quantifier": "all arrays of votes, all tables of comparisons in which every video has won, all factors c > 0", "why_tests_cant": "the tests compare outputs for given datasets; no test enters the same votes a second time and compares the two outputs", "anchors": [{"file": "sureal/subjective_model.py", "symbols": ["MosModel"]}, {"file": "sureal/pc_subjective_model.py", "symbols": ["BradleyTerryMlePairedCompSubjectiveModel"]}]}
