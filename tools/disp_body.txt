  cases s with
  | density x mean var => GOAL
  | smoError n d i ni bt bs =>
      obtain ⟨hi, hb⟩ := hs
      rcases shape_cases hb with ⟨r, rfl⟩ | ⟨r, c, rfl⟩ <;> cases ni <;> cases bt <;>
        simp [Site.run, Site.table, Site.args, dispatch, List.find?, Overload.takes, fits, shapeFits,
      Width.float, Width.int, Site.InDouble, Runs, r_mat_arr, r_vec_arr, r_row_arr,
      r_tensor_arr, r_mat_list, r_mat_str, r_np_sc, r_np_arr, r_np_int, r_np_flt,
      r_float_flt, r_float_arr, r_float_f64, r_float_f32, r_object, r_str_str, r_str_arr,
      r_str_list, r_bool, calculateError, selectSecondAlpha, threeFloats, kernelCall,
      initCentroids, calculateEuclideanDistance, getCluster, calculateCentroids,
      compareDifferences, calculateMeans, getWithinClassScatterMatrix, getW,
      bootstrapSampling, getPriorProbability, threeCounts, initializerCall,
      rbfInitializerCall, activationCall, twoMatricesArgs, matrices, List.replicate,
      r_i32_arr, r_u32_int _ _ hi, r_u32_i64 _ _ hi]
  | smoSelectFresh n e => cases e <;> simp [Site.run, Site.table, Site.args, dispatch, List.find?, Overload.takes, fits, shapeFits,
      Width.float, Width.int, Site.InDouble, Runs, r_mat_arr, r_vec_arr, r_row_arr,
      r_tensor_arr, r_mat_list, r_mat_str, r_np_sc, r_np_arr, r_np_int, r_np_flt,
      r_float_flt, r_float_arr, r_float_f64, r_float_f32, r_object, r_str_str, r_str_arr,
      r_str_list, r_bool, calculateError, selectSecondAlpha, threeFloats, kernelCall,
      initCentroids, calculateEuclideanDistance, getCluster, calculateCentroids,
      compareDifferences, calculateMeans, getWithinClassScatterMatrix, getW,
      bootstrapSampling, getPriorProbability, threeCounts, initializerCall,
      rbfInitializerCall, activationCall, twoMatricesArgs, matrices, List.replicate,
      r_i32_arr]
  | smoSelectCached n => simp [Site.run, Site.table, Site.args, dispatch, List.find?, Overload.takes, fits, shapeFits,
      Width.float, Width.int, Site.InDouble, Runs, r_mat_arr, r_vec_arr, r_row_arr,
      r_tensor_arr, r_mat_list, r_mat_str, r_np_sc, r_np_arr, r_np_int, r_np_flt,
      r_float_flt, r_float_arr, r_float_f64, r_float_f32, r_object, r_str_str, r_str_arr,
      r_str_list, r_bool, calculateError, selectSecondAlpha, threeFloats, kernelCall,
      initCentroids, calculateEuclideanDistance, getCluster, calculateCentroids,
      compareDifferences, calculateMeans, getWithinClassScatterMatrix, getW,
      bootstrapSampling, getPriorProbability, threeCounts, initializerCall,
      rbfInitializerCall, activationCall, twoMatricesArgs, matrices, List.replicate,
      r_i32_arr]
  | smoClip a => cases a <;> simp [Site.run, Site.table, Site.args, dispatch, List.find?, Overload.takes, fits, shapeFits,
      Width.float, Width.int, Site.InDouble, Runs, r_mat_arr, r_vec_arr, r_row_arr,
      r_tensor_arr, r_mat_list, r_mat_str, r_np_sc, r_np_arr, r_np_int, r_np_flt,
      r_float_flt, r_float_arr, r_float_f64, r_float_f32, r_object, r_str_str, r_str_arr,
      r_str_list, r_bool, calculateError, selectSecondAlpha, threeFloats, kernelCall,
      initCentroids, calculateEuclideanDistance, getCluster, calculateCentroids,
      compareDifferences, calculateMeans, getWithinClassScatterMatrix, getW,
      bootstrapSampling, getPriorProbability, threeCounts, initializerCall,
      rbfInitializerCall, activationCall, twoMatricesArgs, matrices, List.replicate,
      r_i32_arr]
  | smoKernel d => simp [Site.run, Site.table, Site.args, dispatch, List.find?, Overload.takes, fits, shapeFits,
      Width.float, Width.int, Site.InDouble, Runs, r_mat_arr, r_vec_arr, r_row_arr,
      r_tensor_arr, r_mat_list, r_mat_str, r_np_sc, r_np_arr, r_np_int, r_np_flt,
      r_float_flt, r_float_arr, r_float_f64, r_float_f32, r_object, r_str_str, r_str_arr,
      r_str_list, r_bool, calculateError, selectSecondAlpha, threeFloats, kernelCall,
      initCentroids, calculateEuclideanDistance, getCluster, calculateCentroids,
      compareDifferences, calculateMeans, getWithinClassScatterMatrix, getW,
      bootstrapSampling, getPriorProbability, threeCounts, initializerCall,
      rbfInitializerCall, activationCall, twoMatricesArgs, matrices, List.replicate,
      r_i32_arr]
  | svcPredict d m => simp [Site.run, Site.table, Site.args, dispatch, List.find?, Overload.takes, fits, shapeFits,
      Width.float, Width.int, Site.InDouble, Runs, r_mat_arr, r_vec_arr, r_row_arr,
      r_tensor_arr, r_mat_list, r_mat_str, r_np_sc, r_np_arr, r_np_int, r_np_flt,
      r_float_flt, r_float_arr, r_float_f64, r_float_f32, r_object, r_str_str, r_str_arr,
      r_str_list, r_bool, calculateError, selectSecondAlpha, threeFloats, kernelCall,
      initCentroids, calculateEuclideanDistance, getCluster, calculateCentroids,
      compareDifferences, calculateMeans, getWithinClassScatterMatrix, getW,
      bootstrapSampling, getPriorProbability, threeCounts, initializerCall,
      rbfInitializerCall, activationCall, twoMatricesArgs, matrices, List.replicate,
      r_i32_arr]
  | kmeansInit n d k => simp [Site.run, Site.table, Site.args, dispatch, List.find?, Overload.takes, fits, shapeFits,
      Width.float, Width.int, Site.InDouble, Runs, r_mat_arr, r_vec_arr, r_row_arr,
      r_tensor_arr, r_mat_list, r_mat_str, r_np_sc, r_np_arr, r_np_int, r_np_flt,
      r_float_flt, r_float_arr, r_float_f64, r_float_f32, r_object, r_str_str, r_str_arr,
      r_str_list, r_bool, calculateError, selectSecondAlpha, threeFloats, kernelCall,
      initCentroids, calculateEuclideanDistance, getCluster, calculateCentroids,
      compareDifferences, calculateMeans, getWithinClassScatterMatrix, getW,
      bootstrapSampling, getPriorProbability, threeCounts, initializerCall,
      rbfInitializerCall, activationCall, twoMatricesArgs, matrices, List.replicate,
      r_i32_arr, r_u32_int _ _ hs, r_u64_int _ _ hs]
  | kmeansInitArray n d k dt shape =>
      obtain ⟨hk, hb⟩ := hs
      rcases shape_cases hb with ⟨r, rfl⟩ | ⟨r, c, rfl⟩ <;> cases dt <;>
        simp [Site.run, Site.table, Site.args, dispatch, List.find?, Overload.takes, fits, shapeFits,
      Width.float, Width.int, Site.InDouble, Runs, r_mat_arr, r_vec_arr, r_row_arr,
      r_tensor_arr, r_mat_list, r_mat_str, r_np_sc, r_np_arr, r_np_int, r_np_flt,
      r_float_flt, r_float_arr, r_float_f64, r_float_f32, r_object, r_str_str, r_str_arr,
      r_str_list, r_bool, calculateError, selectSecondAlpha, threeFloats, kernelCall,
      initCentroids, calculateEuclideanDistance, getCluster, calculateCentroids,
      compareDifferences, calculateMeans, getWithinClassScatterMatrix, getW,
      bootstrapSampling, getPriorProbability, threeCounts, initializerCall,
      rbfInitializerCall, activationCall, twoMatricesArgs, matrices, List.replicate,
      r_i32_arr, r_u32_int _ _ hk, r_u64_int _ _ hk]
  | kmeansInitList n d k m rest =>
      obtain ⟨hk, hb⟩ := hs
      rcases rest with _ | ⟨c, _ | ⟨e, l⟩⟩
      · simp [Site.run, Site.table, Site.args, dispatch, List.find?, Overload.takes, fits, shapeFits,
      Width.float, Width.int, Site.InDouble, Runs, r_mat_arr, r_vec_arr, r_row_arr,
      r_tensor_arr, r_mat_list, r_mat_str, r_np_sc, r_np_arr, r_np_int, r_np_flt,
      r_float_flt, r_float_arr, r_float_f64, r_float_f32, r_object, r_str_str, r_str_arr,
      r_str_list, r_bool, calculateError, selectSecondAlpha, threeFloats, kernelCall,
      initCentroids, calculateEuclideanDistance, getCluster, calculateCentroids,
      compareDifferences, calculateMeans, getWithinClassScatterMatrix, getW,
      bootstrapSampling, getPriorProbability, threeCounts, initializerCall,
      rbfInitializerCall, activationCall, twoMatricesArgs, matrices, List.replicate,
      r_i32_arr, r_u32_int _ _ hk, r_u64_int _ _ hk]
      · simp [Site.run, Site.table, Site.args, dispatch, List.find?, Overload.takes, fits, shapeFits,
      Width.float, Width.int, Site.InDouble, Runs, r_mat_arr, r_vec_arr, r_row_arr,
      r_tensor_arr, r_mat_list, r_mat_str, r_np_sc, r_np_arr, r_np_int, r_np_flt,
      r_float_flt, r_float_arr, r_float_f64, r_float_f32, r_object, r_str_str, r_str_arr,
      r_str_list, r_bool, calculateError, selectSecondAlpha, threeFloats, kernelCall,
      initCentroids, calculateEuclideanDistance, getCluster, calculateCentroids,
      compareDifferences, calculateMeans, getWithinClassScatterMatrix, getW,
      bootstrapSampling, getPriorProbability, threeCounts, initializerCall,
      rbfInitializerCall, activationCall, twoMatricesArgs, matrices, List.replicate,
      r_i32_arr, r_u32_int _ _ hk, r_u64_int _ _ hk]
      · simp [OneOrTwoAxes] at hb
  | kmeansDistance n d k ct => cases ct <;> simp [Site.run, Site.table, Site.args, dispatch, List.find?, Overload.takes, fits, shapeFits,
      Width.float, Width.int, Site.InDouble, Runs, r_mat_arr, r_vec_arr, r_row_arr,
      r_tensor_arr, r_mat_list, r_mat_str, r_np_sc, r_np_arr, r_np_int, r_np_flt,
      r_float_flt, r_float_arr, r_float_f64, r_float_f32, r_object, r_str_str, r_str_arr,
      r_str_list, r_bool, calculateError, selectSecondAlpha, threeFloats, kernelCall,
      initCentroids, calculateEuclideanDistance, getCluster, calculateCentroids,
      compareDifferences, calculateMeans, getWithinClassScatterMatrix, getW,
      bootstrapSampling, getPriorProbability, threeCounts, initializerCall,
      rbfInitializerCall, activationCall, twoMatricesArgs, matrices, List.replicate,
      r_i32_arr]
  | kmeansCluster n k t => cases t <;> simp [Site.run, Site.table, Site.args, dispatch, List.find?, Overload.takes, fits, shapeFits,
      Width.float, Width.int, Site.InDouble, Runs, r_mat_arr, r_vec_arr, r_row_arr,
      r_tensor_arr, r_mat_list, r_mat_str, r_np_sc, r_np_arr, r_np_int, r_np_flt,
      r_float_flt, r_float_arr, r_float_f64, r_float_f32, r_object, r_str_str, r_str_arr,
      r_str_list, r_bool, calculateError, selectSecondAlpha, threeFloats, kernelCall,
      initCentroids, calculateEuclideanDistance, getCluster, calculateCentroids,
      compareDifferences, calculateMeans, getWithinClassScatterMatrix, getW,
      bootstrapSampling, getPriorProbability, threeCounts, initializerCall,
      rbfInitializerCall, activationCall, twoMatricesArgs, matrices, List.replicate,
      r_i32_arr] <;> simp [Site.Usual] at hs
  | kmeansCentroids n d => simp [Site.run, Site.table, Site.args, dispatch, List.find?, Overload.takes, fits, shapeFits,
      Width.float, Width.int, Site.InDouble, Runs, r_mat_arr, r_vec_arr, r_row_arr,
      r_tensor_arr, r_mat_list, r_mat_str, r_np_sc, r_np_arr, r_np_int, r_np_flt,
      r_float_flt, r_float_arr, r_float_f64, r_float_f32, r_object, r_str_str, r_str_arr,
      r_str_list, r_bool, calculateError, selectSecondAlpha, threeFloats, kernelCall,
      initCentroids, calculateEuclideanDistance, getCluster, calculateCentroids,
      compareDifferences, calculateMeans, getWithinClassScatterMatrix, getW,
      bootstrapSampling, getPriorProbability, threeCounts, initializerCall,
      rbfInitializerCall, activationCall, twoMatricesArgs, matrices, List.replicate,
      r_i32_arr]
  | compareMatrices s₀ s₁ t₀ t₁ =>
      rcases shape_cases hs.1 with ⟨r, rfl⟩ | ⟨r, c, rfl⟩ <;>
        rcases shape_cases hs.2 with ⟨r', rfl⟩ | ⟨r', c', rfl⟩ <;> cases t₀ <;> cases t₁ <;>
          simp [Site.run, Site.table, Site.args, dispatch, List.find?, Overload.takes, fits, shapeFits,
      Width.float, Width.int, Site.InDouble, Runs, r_mat_arr, r_vec_arr, r_row_arr,
      r_tensor_arr, r_mat_list, r_mat_str, r_np_sc, r_np_arr, r_np_int, r_np_flt,
      r_float_flt, r_float_arr, r_float_f64, r_float_f32, r_object, r_str_str, r_str_arr,
      r_str_list, r_bool, calculateError, selectSecondAlpha, threeFloats, kernelCall,
      initCentroids, calculateEuclideanDistance, getCluster, calculateCentroids,
      compareDifferences, calculateMeans, getWithinClassScatterMatrix, getW,
      bootstrapSampling, getPriorProbability, threeCounts, initializerCall,
      rbfInitializerCall, activationCall, twoMatricesArgs, matrices, List.replicate,
      r_i32_arr]
  | compareTensors k d t₀ t₁ => cases t₀ <;> cases t₁ <;> simp [Site.run, Site.table, Site.args, dispatch, List.find?, Overload.takes, fits, shapeFits,
      Width.float, Width.int, Site.InDouble, Runs, r_mat_arr, r_vec_arr, r_row_arr,
      r_tensor_arr, r_mat_list, r_mat_str, r_np_sc, r_np_arr, r_np_int, r_np_flt,
      r_float_flt, r_float_arr, r_float_f64, r_float_f32, r_object, r_str_str, r_str_arr,
      r_str_list, r_bool, calculateError, selectSecondAlpha, threeFloats, kernelCall,
      initCentroids, calculateEuclideanDistance, getCluster, calculateCentroids,
      compareDifferences, calculateMeans, getWithinClassScatterMatrix, getW,
      bootstrapSampling, getPriorProbability, threeCounts, initializerCall,
      rbfInitializerCall, activationCall, twoMatricesArgs, matrices, List.replicate,
      r_i32_arr]
  | gmmMeans n d k t => cases t <;> simp [Site.run, Site.table, Site.args, dispatch, List.find?, Overload.takes, fits, shapeFits,
      Width.float, Width.int, Site.InDouble, Runs, r_mat_arr, r_vec_arr, r_row_arr,
      r_tensor_arr, r_mat_list, r_mat_str, r_np_sc, r_np_arr, r_np_int, r_np_flt,
      r_float_flt, r_float_arr, r_float_f64, r_float_f32, r_object, r_str_str, r_str_arr,
      r_str_list, r_bool, calculateError, selectSecondAlpha, threeFloats, kernelCall,
      initCentroids, calculateEuclideanDistance, getCluster, calculateCentroids,
      compareDifferences, calculateMeans, getWithinClassScatterMatrix, getW,
      bootstrapSampling, getPriorProbability, threeCounts, initializerCall,
      rbfInitializerCall, activationCall, twoMatricesArgs, matrices, List.replicate,
      r_i32_arr]
  | ldaScatter n₀ n₁ d => simp [Site.run, Site.table, Site.args, dispatch, List.find?, Overload.takes, fits, shapeFits,
      Width.float, Width.int, Site.InDouble, Runs, r_mat_arr, r_vec_arr, r_row_arr,
      r_tensor_arr, r_mat_list, r_mat_str, r_np_sc, r_np_arr, r_np_int, r_np_flt,
      r_float_flt, r_float_arr, r_float_f64, r_float_f32, r_object, r_str_str, r_str_arr,
      r_str_list, r_bool, calculateError, selectSecondAlpha, threeFloats, kernelCall,
      initCentroids, calculateEuclideanDistance, getCluster, calculateCentroids,
      compareDifferences, calculateMeans, getWithinClassScatterMatrix, getW,
      bootstrapSampling, getPriorProbability, threeCounts, initializerCall,
      rbfInitializerCall, activationCall, twoMatricesArgs, matrices, List.replicate,
      r_i32_arr]
  | ldaW d t => cases t <;> simp [Site.run, Site.table, Site.args, dispatch, List.find?, Overload.takes, fits, shapeFits,
      Width.float, Width.int, Site.InDouble, Runs, r_mat_arr, r_vec_arr, r_row_arr,
      r_tensor_arr, r_mat_list, r_mat_str, r_np_sc, r_np_arr, r_np_int, r_np_flt,
      r_float_flt, r_float_arr, r_float_f64, r_float_f32, r_object, r_str_str, r_str_arr,
      r_str_list, r_bool, calculateError, selectSecondAlpha, threeFloats, kernelCall,
      initCentroids, calculateEuclideanDistance, getCluster, calculateCentroids,
      compareDifferences, calculateMeans, getWithinClassScatterMatrix, getW,
      bootstrapSampling, getPriorProbability, threeCounts, initializerCall,
      rbfInitializerCall, activationCall, twoMatricesArgs, matrices, List.replicate,
      r_i32_arr]
  | bagging n d seed => simp [Site.run, Site.table, Site.args, dispatch, List.find?, Overload.takes, fits, shapeFits,
      Width.float, Width.int, Site.InDouble, Runs, r_mat_arr, r_vec_arr, r_row_arr,
      r_tensor_arr, r_mat_list, r_mat_str, r_np_sc, r_np_arr, r_np_int, r_np_flt,
      r_float_flt, r_float_arr, r_float_f64, r_float_f32, r_object, r_str_str, r_str_arr,
      r_str_list, r_bool, calculateError, selectSecondAlpha, threeFloats, kernelCall,
      initCentroids, calculateEuclideanDistance, getCluster, calculateCentroids,
      compareDifferences, calculateMeans, getWithinClassScatterMatrix, getW,
      bootstrapSampling, getPriorProbability, threeCounts, initializerCall,
      rbfInitializerCall, activationCall, twoMatricesArgs, matrices, List.replicate,
      r_i32_arr, r_opt_int _ _ hs]
  | nbPrior n => simp [Site.run, Site.table, Site.args, dispatch, List.find?, Overload.takes, fits, shapeFits,
      Width.float, Width.int, Site.InDouble, Runs, r_mat_arr, r_vec_arr, r_row_arr,
      r_tensor_arr, r_mat_list, r_mat_str, r_np_sc, r_np_arr, r_np_int, r_np_flt,
      r_float_flt, r_float_arr, r_float_f64, r_float_f32, r_object, r_str_str, r_str_arr,
      r_str_list, r_bool, calculateError, selectSecondAlpha, threeFloats, kernelCall,
      initCentroids, calculateEuclideanDistance, getCluster, calculateCentroids,
      compareDifferences, calculateMeans, getWithinClassScatterMatrix, getW,
      bootstrapSampling, getPriorProbability, threeCounts, initializerCall,
      rbfInitializerCall, activationCall, twoMatricesArgs, matrices, List.replicate,
      r_i32_arr, r_u32_int _ _ hs]
  | nbConditional a b n =>
      obtain ⟨h1, h2, h3⟩ := hs
      simp [Site.run, Site.table, Site.args, dispatch, List.find?, Overload.takes, fits, shapeFits,
      Width.float, Width.int, Site.InDouble, Runs, r_mat_arr, r_vec_arr, r_row_arr,
      r_tensor_arr, r_mat_list, r_mat_str, r_np_sc, r_np_arr, r_np_int, r_np_flt,
      r_float_flt, r_float_arr, r_float_f64, r_float_f32, r_object, r_str_str, r_str_arr,
      r_str_list, r_bool, calculateError, selectSecondAlpha, threeFloats, kernelCall,
      initCentroids, calculateEuclideanDistance, getCluster, calculateCentroids,
      compareDifferences, calculateMeans, getWithinClassScatterMatrix, getW,
      bootstrapSampling, getPriorProbability, threeCounts, initializerCall,
      rbfInitializerCall, activationCall, twoMatricesArgs, matrices, List.replicate,
      r_i32_arr, r_u32_int _ _ h2, r_u32_int _ _ h3, r_u32_f64, r_u32_f32 _ _ h1]
  | spodePrior a b n =>
      obtain ⟨h1, h2, h3⟩ := hs
      simp [Site.run, Site.table, Site.args, dispatch, List.find?, Overload.takes, fits, shapeFits,
      Width.float, Width.int, Site.InDouble, Runs, r_mat_arr, r_vec_arr, r_row_arr,
      r_tensor_arr, r_mat_list, r_mat_str, r_np_sc, r_np_arr, r_np_int, r_np_flt,
      r_float_flt, r_float_arr, r_float_f64, r_float_f32, r_object, r_str_str, r_str_arr,
      r_str_list, r_bool, calculateError, selectSecondAlpha, threeFloats, kernelCall,
      initCentroids, calculateEuclideanDistance, getCluster, calculateCentroids,
      compareDifferences, calculateMeans, getWithinClassScatterMatrix, getW,
      bootstrapSampling, getPriorProbability, threeCounts, initializerCall,
      rbfInitializerCall, activationCall, twoMatricesArgs, matrices, List.replicate,
      r_i32_arr, r_u32_int _ _ h1, r_u32_int _ _ h2, r_u32_int _ _ h3]
  | spodeConditional a b n =>
      obtain ⟨h1, h2, h3⟩ := hs
      cases idx <;>
        simp [Site.run, Site.table, Site.args, dispatch, List.find?, Overload.takes, fits, shapeFits,
      Width.float, Width.int, Site.InDouble, Runs, r_mat_arr, r_vec_arr, r_row_arr,
      r_tensor_arr, r_mat_list, r_mat_str, r_np_sc, r_np_arr, r_np_int, r_np_flt,
      r_float_flt, r_float_arr, r_float_f64, r_float_f32, r_object, r_str_str, r_str_arr,
      r_str_list, r_bool, calculateError, selectSecondAlpha, threeFloats, kernelCall,
      initCentroids, calculateEuclideanDistance, getCluster, calculateCentroids,
      compareDifferences, calculateMeans, getWithinClassScatterMatrix, getW,
      bootstrapSampling, getPriorProbability, threeCounts, initializerCall,
      rbfInitializerCall, activationCall, twoMatricesArgs, matrices, List.replicate,
      r_i32_arr, r_u32_i64 _ _ h1, r_u32_i32 _ _ h1, r_u32_int _ _ h2, r_u32_int _ _ h3]
  | logregInit d => simp [Site.run, Site.table, Site.args, dispatch, List.find?, Overload.takes, fits, shapeFits,
      Width.float, Width.int, Site.InDouble, Runs, r_mat_arr, r_vec_arr, r_row_arr,
      r_tensor_arr, r_mat_list, r_mat_str, r_np_sc, r_np_arr, r_np_int, r_np_flt,
      r_float_flt, r_float_arr, r_float_f64, r_float_f32, r_object, r_str_str, r_str_arr,
      r_str_list, r_bool, calculateError, selectSecondAlpha, threeFloats, kernelCall,
      initCentroids, calculateEuclideanDistance, getCluster, calculateCentroids,
      compareDifferences, calculateMeans, getWithinClassScatterMatrix, getW,
      bootstrapSampling, getPriorProbability, threeCounts, initializerCall,
      rbfInitializerCall, activationCall, twoMatricesArgs, matrices, List.replicate,
      r_i32_arr]
  | bpnnInit n => simp [Site.run, Site.table, Site.args, dispatch, List.find?, Overload.takes, fits, shapeFits,
      Width.float, Width.int, Site.InDouble, Runs, r_mat_arr, r_vec_arr, r_row_arr,
      r_tensor_arr, r_mat_list, r_mat_str, r_np_sc, r_np_arr, r_np_int, r_np_flt,
      r_float_flt, r_float_arr, r_float_f64, r_float_f32, r_object, r_str_str, r_str_arr,
      r_str_list, r_bool, calculateError, selectSecondAlpha, threeFloats, kernelCall,
      initCentroids, calculateEuclideanDistance, getCluster, calculateCentroids,
      compareDifferences, calculateMeans, getWithinClassScatterMatrix, getW,
      bootstrapSampling, getPriorProbability, threeCounts, initializerCall,
      rbfInitializerCall, activationCall, twoMatricesArgs, matrices, List.replicate,
      r_i32_arr]
  | rbfInit h => simp [Site.run, Site.table, Site.args, dispatch, List.find?, Overload.takes, fits, shapeFits,
      Width.float, Width.int, Site.InDouble, Runs, r_mat_arr, r_vec_arr, r_row_arr,
      r_tensor_arr, r_mat_list, r_mat_str, r_np_sc, r_np_arr, r_np_int, r_np_flt,
      r_float_flt, r_float_arr, r_float_f64, r_float_f32, r_object, r_str_str, r_str_arr,
      r_str_list, r_bool, calculateError, selectSecondAlpha, threeFloats, kernelCall,
      initCentroids, calculateEuclideanDistance, getCluster, calculateCentroids,
      compareDifferences, calculateMeans, getWithinClassScatterMatrix, getW,
      bootstrapSampling, getPriorProbability, threeCounts, initializerCall,
      rbfInitializerCall, activationCall, twoMatricesArgs, matrices, List.replicate,
      r_i32_arr, r_i32_int _ _ hs]
  | activation n m t => cases t <;> simp [Site.run, Site.table, Site.args, dispatch, List.find?, Overload.takes, fits, shapeFits,
      Width.float, Width.int, Site.InDouble, Runs, r_mat_arr, r_vec_arr, r_row_arr,
      r_tensor_arr, r_mat_list, r_mat_str, r_np_sc, r_np_arr, r_np_int, r_np_flt,
      r_float_flt, r_float_arr, r_float_f64, r_float_f32, r_object, r_str_str, r_str_arr,
      r_str_list, r_bool, calculateError, selectSecondAlpha, threeFloats, kernelCall,
      initCentroids, calculateEuclideanDistance, getCluster, calculateCentroids,
      compareDifferences, calculateMeans, getWithinClassScatterMatrix, getW,
      bootstrapSampling, getPriorProbability, threeCounts, initializerCall,
      rbfInitializerCall, activationCall, twoMatricesArgs, matrices, List.replicate,
      r_i32_arr] <;> simp [Site.Usual] at hs
  | sigmoidDiff n => simp [Site.run, Site.table, Site.args, dispatch, List.find?, Overload.takes, fits, shapeFits,
      Width.float, Width.int, Site.InDouble, Runs, r_mat_arr, r_vec_arr, r_row_arr,
      r_tensor_arr, r_mat_list, r_mat_str, r_np_sc, r_np_arr, r_np_int, r_np_flt,
      r_float_flt, r_float_arr, r_float_f64, r_float_f32, r_object, r_str_str, r_str_arr,
      r_str_list, r_bool, calculateError, selectSecondAlpha, threeFloats, kernelCall,
      initCentroids, calculateEuclideanDistance, getCluster, calculateCentroids,
      compareDifferences, calculateMeans, getWithinClassScatterMatrix, getW,
      bootstrapSampling, getPriorProbability, threeCounts, initializerCall,
      rbfInitializerCall, activationCall, twoMatricesArgs, matrices, List.replicate,
      r_i32_arr]
  | softmaxDiff n m => simp [Site.run, Site.table, Site.args, dispatch, List.find?, Overload.takes, fits, shapeFits,
      Width.float, Width.int, Site.InDouble, Runs, r_mat_arr, r_vec_arr, r_row_arr,
      r_tensor_arr, r_mat_list, r_mat_str, r_np_sc, r_np_arr, r_np_int, r_np_flt,
      r_float_flt, r_float_arr, r_float_f64, r_float_f32, r_object, r_str_str, r_str_arr,
      r_str_list, r_bool, calculateError, selectSecondAlpha, threeFloats, kernelCall,
      initCentroids, calculateEuclideanDistance, getCluster, calculateCentroids,
      compareDifferences, calculateMeans, getWithinClassScatterMatrix, getW,
      bootstrapSampling, getPriorProbability, threeCounts, initializerCall,
      rbfInitializerCall, activationCall, twoMatricesArgs, matrices, List.replicate,
      r_i32_arr]
  | reluDiff n m t₀ t₁ => cases t₀ <;> cases t₁ <;> simp [Site.run, Site.table, Site.args, dispatch, List.find?, Overload.takes, fits, shapeFits,
      Width.float, Width.int, Site.InDouble, Runs, r_mat_arr, r_vec_arr, r_row_arr,
      r_tensor_arr, r_mat_list, r_mat_str, r_np_sc, r_np_arr, r_np_int, r_np_flt,
      r_float_flt, r_float_arr, r_float_f64, r_float_f32, r_object, r_str_str, r_str_arr,
      r_str_list, r_bool, calculateError, selectSecondAlpha, threeFloats, kernelCall,
      initCentroids, calculateEuclideanDistance, getCluster, calculateCentroids,
      compareDifferences, calculateMeans, getWithinClassScatterMatrix, getW,
      bootstrapSampling, getPriorProbability, threeCounts, initializerCall,
      rbfInitializerCall, activationCall, twoMatricesArgs, matrices, List.replicate,
      r_i32_arr] <;> simp [Site.Usual] at hs
  | lossOrMetric t s₀ s₁ =>
      rcases shape_cases hs.1 with ⟨r, rfl⟩ | ⟨r, c, rfl⟩ <;>
        rcases shape_cases hs.2 with ⟨r', rfl⟩ | ⟨r', c', rfl⟩ <;> cases t <;> simp [Site.run, Site.table, Site.args, dispatch, List.find?, Overload.takes, fits, shapeFits,
      Width.float, Width.int, Site.InDouble, Runs, r_mat_arr, r_vec_arr, r_row_arr,
      r_tensor_arr, r_mat_list, r_mat_str, r_np_sc, r_np_arr, r_np_int, r_np_flt,
      r_float_flt, r_float_arr, r_float_f64, r_float_f32, r_object, r_str_str, r_str_arr,
      r_str_list, r_bool, calculateError, selectSecondAlpha, threeFloats, kernelCall,
      initCentroids, calculateEuclideanDistance, getCluster, calculateCentroids,
      compareDifferences, calculateMeans, getWithinClassScatterMatrix, getW,
      bootstrapSampling, getPriorProbability, threeCounts, initializerCall,
      rbfInitializerCall, activationCall, twoMatricesArgs, matrices, List.replicate,
      r_i32_arr]
