T[('Network','addBias')]='C49_array_rules'; T[('Network','matmul')]='C49_array_rules'; T[('Network','tMatmul')]='C49_array_rules'; T[('Network','matmulT')]='C49_array_rules'
T[('SVC','var')]='C125_first_fit_partial'
T[('SVC','Gamma.value')]='C125_gamma_defined'
T[('GMMInit','unsqueeze')]='C121_accepted_entries'
T[('CC','initCentroids')]='C134_refused'
T[('Network','sgdStep')]='C89_missing_labels'
T[('CCOps','fitLDA')]='C147_lengths'
T[('CCOps','strKey')]='C148_empty_string'
T[('Engines','bceCC')]='C142_lengths_differ C142_flat_predictions'
T[('Engines','bcePy')]='C142_lengths_differ C142_flat_predictions'
T[('Engines','column')]='C142_column'
T[('Engines','divNat')]='C143_no_samples'
T[('Engines','llPy')]='C142_likelihood_width'
T[('Engines','matmulPy')]='C144_vectors'
T[('Engines','rbfPy')]='C144_vectors'
T[('Engines','maxOf')]='C145_softmax_shift'
T[('Engines','squeeze')]='C142_squeeze'
T[('Init','callInt')]='C137_regression_draws'
T[('Init','ccNormal')]='C140_pairs'
for d in ('adaPredict','baggingPredict'): T[('Calls',d)]='C161_ensemble_errors C160_ada_table'
T[('Calls','asFloat')]='C160_unsuitable_entries'; T[('Calls','toNum')]='C160_unsuitable_entries'
T[('Calls','byPosition')]='C162_no_names'; T[('Calls','pdFrame')]='C162_no_names'
T[('Calls','npLists')]='C160_tree_lists_kinds'; T[('Calls','treeBlock')]='C160_tree_lists_kinds'; T[('Calls','treeRow')]='C161_short_row'
T[('Score','binaryColumns')]='C163_wide_labels'; T[('Spode','Spode.fit')]='C165_kept_position_beyond C165_fresh_and_empty'; T[('Spode','Spode.new')]='C165_fresh_and_empty'
for d in ('bdim','bidx','bcast'): T[('Adam',d)]='C52_broadcast'
T[('Adam','AdamMat.step')]='C52_step_refused'; T[('Adam','adamUpdate')]='C52_missing_gradient C52_wrong_gradient'; T[('Adam','sampleGrad')]='C52_sample_iff'
for d in ('LR.predict','LDAObj.predict','KMObj.predict','NBObj.predict','BPObj.predict'): T[('FailedFit',d)]='C70_untrained C70_after_failed_fit C70_no_parameters'
T[('FailedFit','LR.fit')]='C171_logistic_loaded_other C171_logistic_loaded_empty'; T[('FailedFit','lookAll')]='C70_bayes_unknown_attribute'; T[('FailedFit','adaLoop')]='C171_adaboost_twice'
T[('Frames','Heap.alloc')]='C170_new_table C170_two_tables'; T[('Frames','asFrame')]='C170_wrong_width C170_repeated_columns'; T[('Frames','asSeries')]='C170_unconvertible_labels'
T[('Reload','Process.start')]='C169_generator'; T[('Reload','Process.step')]='C169_generator'; T[('Reload','secondInts')]='C168_ints_second_load'
T[('Network','addBias')]='C49_bias'; T[('Network','zipWith')]='C89_elementwise'; T[('Network','subInPlace')]='C49_update_in_place'
for d in ('getGrad','reluDiffMat','update','backward'): T[('Network',d)]='C49_backward_refused'
for d in ('matmul','tMatmul'): T[('Network',d)]='C49_products'
for d in ('forward','softmaxMat'): T[('Network',d)]='C49_refused'
T[('Network','sgdStep')]='C49_epoch_iff'
T[('RBF','error')]='C91_error_vector'; T[('RBF','backward')]='C91_backward_refused'

T[('Compile','forward')]='C202_predict_logistic C176_wrong_optimizer'
for d in ('gdEpoch','newtonEpoch','flat'): T[('Compile',d)]='C202_gradient_descent C202_newton C174_wrong_data'
for d in ('asMat','sgdEpoch'): T[('Compile',d)]='C202_sgd'
for d in ('adamStart','adamEpoch'): T[('Compile',d)]='C202_adam C174_wrong_optimizer'
for d in ('initRBF','rbfEpoch'): T[('Compile',d)]='C202_rbf C174_wrong_initializer'
for d in ('netLayers','initNet'): T[('Compile',d)]='C202_sgd C174_wrong_initializer'
T[('Compile','watch')]='C174_watched'; T[('Compile','predict')]='C202_loaded'; T[('Compile','reseed')]='C177_bad_seed'
T[('Progress','timeTextCC')]='C196_cc_minutes_partial C196_cc_total_partial'
T[('Csv','intColumn')]='C201_mixed_partial'
for d in ('bootstrapSampling','convexHull','calculateCentroids','calculateError','threeFloats','compareDifferences','threeCounts','getPriorProbability','getWV1','initCentroids','selectSecondAlpha','initializerCall','rbfInitializerCall','twoMatricesArgs'):
    T[('Dispatch',d)]='C220_wrong_number'
T[('Calls','Cell.isNum')]='C160_tree_lists_kinds'
T[('Frames','selectCols')]='C170_new_table_values'
for _d in ('LDAObj.load','KMObj.load','bagStep','adaStep','LDAObj.step','KMObj.step'):
    T[('Trace',_d)]='C265_incomplete_files'
T[('Trace','LR.step')]='C265_incomplete_logistic'
T[('SVC','Obj.compile')]='C124_compile'
T[('Ensemble','decideRow')]='C35_zero_sum_sign'
T[('PlotsGrid','plotBayes')]='C159_errors'
T[('Calls','treeBlock')]='C160_tree_lists_transposed'
T[('FailedFit','GMObj.start')]='C171_mixture_replaced'
T[('Lifecycle','step')]='C115_fit_then_saves'
T[('PlotsCluster','plotGM')]='C156_one_column'
T[('Progress','nearest')]='C196_half_second'
T[('Spode','Spode.compile')]='C165_compiled'
T[('Rounded','softmax')]='C277_empty'
T[('Rounded','initCoefficients')]='C279_count'
T[('Tree','generate')]='C309_equal_rows'
T[('Tree','postPrune')]='C127_no_training'
T[('Tree','prePrune')]='C127_no_training'
T[('TraceNB','NBState.incomplete')]='C330_nb'
T[('TraceNB','NBState.step')]='C331_columns'
T[('TraceTree','getPrunerName')]='C331_tree, C330_tree_unknown'
T[('TraceTree','TreeState.fit')]='C331_tree'
T[('TraceGMM','GMState.load')]='C330_mixture'
T[('TraceGMM','GMState.step')]='C330_mixture'
T[('TraceGMM','RBState.step')]='C330_rbf'
T[('TraceSVC','Obj.load')]='C330_svc, C330_svc_unknown'
T[('TraceSpode','SPState.fit')]='C326_spode_stale'
T[('TraceSpode','usedBy')]='C325_aode_elements'
T[('TraceSpode','AOState.predict')]='C325_width'
